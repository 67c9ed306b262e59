import Verif.Spec.System
import Verif.Proofs.Vocabulary
/-
The invariant of the state is kept by the elementary changes.
-/
namespace ONA
variable [Arith] {n : Narsese}

omit [Arith] in
theorem Stamp.zero_wf : Stamp.zero.WF := fun _ _ _ _ _ => rfl

omit [Arith] in
theorem Stamp.single_wf (b : Int) : (Stamp.single b).WF := by
  intro i j h hj h0
  unfold Stamp.single at *
  simp only at *
  by_cases hz : j = 0
  · rw [hz] at h
    rw [if_pos (by omega)] at h0
    rw [if_pos hz, h0]
  · rw [if_neg hz]

theorem Truth.zero_valid : (⟨0, 0⟩ : Truth).Valid := Truth.Valid.mk' unit01_zero unit01_zero

theorem Event.zero_good : Event.zero.Good n := ⟨Narsese.knows_zero, Truth.zero_valid, Stamp.zero_wf⟩

theorem Table.zero_good : Table.zero.Good n := ⟨Table.Reach.zero.inv, fun e he => by cases he⟩

theorem Concept.new_good (s : Sys) {t : Term} (ht : n.Knows t) (now : Int) : (s.newConcept t now).Good n :=
  ⟨ht, Event.zero_good, (by show EventType.deleted ≠ .goal; exact fun h => by cases h), (fun h => absurd rfl h), Event.zero_good, Event.zero_good,
    Event.zero_good, fun _ => Table.zero_good, Table.zero_good,
    (by show (0 : Int) ≤ 1; omega), ⟨le_refl _, by show (0 : ℚ) ≤ 1; norm_num⟩⟩

/-- Where revision is defined, its result is inside the unit square. -/
theorem Truth_Revision_valid {v1 v2 t : Truth} (h1 : v1.Valid) (h2 : v2.Valid) (h : Truth_Revision v1 v2 = .ok t) :
    t.Valid := by
  have bad : ∀ c : ℚ, c = 1 → ∀ w, Truth_c2w c ≠ .ok w := by
    intro c hc w
    unfold Truth_c2w fdiv
    rw [if_pos]
    · intro h; cases h
    · subst hc; unfold fsub; rw [sub_self]; exact rnd_zero
  have z : ∀ c : ℚ, c = 0 → ∀ w, Truth_c2w c = .ok w → w = 0 := by
    intro c hc w h
    unfold Truth_c2w fdiv at h
    split at h
    · cases h
    · cases h
      subst hc
      unfold fmul
      rw [mul_zero, rnd_zero, zero_div, rnd_zero]
  have h' := h
  unfold Truth_Revision at h'
  simp only [R.bind_eq_ok] at h'
  obtain ⟨w1, e1, w2, e2, h'⟩ := h'
  have l1 : v1.confidence < 1 := lt_of_le_of_ne h1.c_le fun hc => bad _ hc _ e1
  have l2 : v2.confidence < 1 := lt_of_le_of_ne h2.c_le fun hc => bad _ hc _ e2
  have hM := MAX_CONFIDENCE_range
  have hMne : ¬ (MAX_CONFIDENCE = 1) := by intro h; rw [h] at hM; norm_num at hM
  simp only [hMne, false_and, if_false, R.bind_eq_ok] at h'
  obtain ⟨f, e3, _⟩ := h'
  have hpos : 0 < v1.confidence ∨ 0 < v2.confidence := by
    by_contra hc
    push Not at hc
    have a := z _ (le_antisymm hc.1 h1.c_nonneg) _ e1
    have b := z _ (le_antisymm hc.2 h2.c_nonneg) _ e2
    subst a b
    unfold fdiv fadd at e3
    rw [add_zero, rnd_zero, if_pos rfl] at e3
    cases e3
  obtain ⟨t', a, b, _⟩ := C22_revision_defined_partial v1 v2 h1 h2 l1 l2 hpos
  rw [h] at a
  cases a
  exact b

theorem Truth_Projection_valid {v : Truth} (h : v.Valid) (o t : Int) : (Truth_Projection v o t).Valid :=
  (C23_projection v h o t).1

theorem Truth_Induction_valid {v1 v2 t : Truth} (h1 : v1.Valid) (h2 : v2.Valid) (h : Truth_Induction v1 v2 = .ok t) :
    t.Valid := by
  obtain ⟨t', a, b, _⟩ := Truth_Abduction_valid h2 h1
  unfold Truth_Induction at h
  rw [h] at a
  cases a
  exact b

theorem Truth_Eternalize_valid {v t : Truth} (h1 : v.Valid) (h : Truth_Eternalize v = .ok t) : t.Valid := by
  obtain ⟨t', a, b, _⟩ := C20_eternalize v h1
  rw [h] at a
  cases a
  exact b

/-! ### Events -/

namespace Event.Good

theorem update {e : Event} (h : e.Good n) (t : Int) : (Inference_EventUpdate e t).Good n :=
  ⟨h.term, Truth_Projection_valid h.truth _ _, h.stamp⟩

theorem eternalized {e e' : Event} (h : e.Good n) (he : Event_Eternalized e = .ok e') : e'.Good n := by
  unfold Event_Eternalized at he
  split at he
  · rw [R.bind_eq_ok] at he
    obtain ⟨t, e1, e2⟩ := he
    cases e2
    exact ⟨h.term, Truth_Eternalize_valid h.truth e1, h.stamp⟩
  · cases he; exact h

theorem revision {a b r : Event} (ha : a.Good n) (hb : b.Good n) (h : Inference_EventRevision a b = .ok r) : r.Good n := by
  unfold Inference_EventRevision at h
  rw [R.bind_eq_ok] at h
  obtain ⟨t, e1, e2⟩ := h
  cases e2
  exact ⟨ha.term, Truth_Revision_valid (Truth_Projection_valid ha.truth _ _) hb.truth e1, Stamp_make_wf _ _⟩

theorem revisionAndChoice {a b r : Event} {x : Bool} (ha : a.Good n) (hb : b.Good n)
    (h : Inference_RevisionAndChoice n a b = .ok (r, x)) : r.Good n := by
  unfold Inference_RevisionAndChoice at h
  by_cases hd : a.type = .deleted
  · rw [if_pos hd] at h; cases h; exact hb
  · rw [if_neg hd] at h
    simp only at h
    generalize (if a.occurrenceTime > b.occurrenceTime then a.occurrenceTime else b.occurrenceTime) = l at h
    by_cases hc : (Stamp_checkOverlap b.stamp a.stamp || (Narsese_copulaEquals n (b.term.get 0) CONJUNCTION ||
        Narsese_copulaEquals n (b.term.get 0) SEQUENCE) && Variable_hasVariable n b.term false true false ||
        (decide (a.occurrenceTime ≠ OCCURRENCE_ETERNAL) && decide (a.occurrenceTime ≠ b.occurrenceTime)) ||
        !decide (a.term = b.term)) = true
    · rw [if_pos hc] at h
      by_cases hg : (Inference_EventUpdate b l).truth.confidence > (Inference_EventUpdate a l).truth.confidence
      · rw [if_pos hg] at h; cases h; exact hb
      · rw [if_neg hg] at h; cases h; exact ha
    · rw [if_neg hc, R.bind_eq_ok] at h
      obtain ⟨r', e1, e2⟩ := h
      by_cases hg : r'.truth.confidence ≥ (Inference_EventUpdate a l).truth.confidence
      · rw [if_pos hg] at e2
        cases e2
        exact revision (ha.update _) (hb.update _) e1
      · rw [if_neg hg] at e2; cases e2

theorem intersection {a b r : Event} (hn : n.Base) (ha : a.Good n) (hb : b.Good n) (h : Inference_BeliefIntersection a b = .ok (some r)) :
    r.Good n := by
  unfold Inference_BeliefIntersection at h
  rw [R.bind_eq_ok] at h
  obtain ⟨_, _, h⟩ := h
  simp only at h
  split at h
  · cases h
    exact ⟨hn.sequence ha.term hb.term, (Truth_Intersection_valid (Truth_Projection_valid ha.truth _ _) hb.truth).1, Stamp_make_wf _ _⟩
  · cases h

theorem goalDeduction {a r : Event} {i : Implication} {t : Int} (ha : a.Good n) (hi : i.Good n)
    (h : Inference_GoalDeduction n a i t = .ok r) : r.Good n := by
  unfold Inference_GoalDeduction at h
  rw [R.bind_eq_ok] at h
  obtain ⟨_, _, h⟩ := h
  cases h
  exact ⟨(hi.term.extract 1).withoutOp _, (Truth_GoalDeduction_valid ha.truth hi.truth).1, Stamp_make_wf _ _⟩

theorem goalSequenceDeduction {a b : Event} (ha : a.Good n) (hb : b.Good n) (t : Int) :
    (Inference_GoalSequenceDeduction a b t).Good n :=
  ⟨ha.term, (Truth_GoalDeduction_valid (ha.update t).truth (hb.update t).truth).1, Stamp_make_wf _ _⟩

theorem beliefDeduction {a r : Event} {i : Implication} (ha : a.Good n) (hi : i.Good n)
    (h : Inference_BeliefDeduction n a i = .ok r) : r.Good n := by
  unfold Inference_BeliefDeduction at h
  rw [R.bind_eq_ok] at h
  obtain ⟨_, _, h⟩ := h
  cases h
  exact ⟨hi.term.extract 2, (Truth_Deduction_valid hi.truth ha.truth).1, Stamp_make_wf _ _⟩

end Event.Good

theorem induction_good {a b : Event} {i : Implication} (hn : n.Base) (ha : a.Good n) (hb : b.Good n)
    (h : Inference_BeliefInduction a b = .ok (some i)) : i.Good n := by
  unfold Inference_BeliefInduction at h
  rw [R.bind_eq_ok] at h
  obtain ⟨_, _, h⟩ := h
  simp only at h
  split at h
  · rw [R.bind_eq_ok] at h
    obtain ⟨t, e1, e2⟩ := h
    cases e2
    exact ⟨hn.compound _ ha.term hb.term, Truth_Induction_valid hb.truth (Truth_Projection_valid ha.truth _ _) e1, Stamp_make_wf _ _⟩
  · cases h

theorem implicationRevision_good {a b r : Implication} (ha : a.Good n) (hb : b.Good n)
    (h : Inference_ImplicationRevision a b = .ok r) : r.Good n ∧ r.sourceConcept = a.sourceConcept := by
  unfold Inference_ImplicationRevision at h
  simp only [R.bind_eq_ok] at h
  obtain ⟨_, _, _, _, _, _, t, e, h⟩ := h
  cases h
  exact ⟨⟨ha.term, Truth_Revision_valid ha.truth hb.truth e, Stamp_make_wf _ _⟩, rfl⟩

/-! ### Tables -/

theorem Table.Good.remove {t : Table} (h : t.Good n) {i : Nat} (hi : i < t.itemsAmount) : (Table_Remove t i).Good n := by
  have hs : (Table_Remove t i).entries.Sublist t.entries := by
    rw [Table.remove_entries _ _ hi]; exact List.eraseIdx_sublist _ _
  exact ⟨h.inv.sub hs, fun e he => h.good e (hs.subset he)⟩

theorem Table.Good.add {t t' : Table} (h : t.Good n) {imp : Implication} {r : Option Nat} (hi : imp.Good n)
    (hadd : Table_AddAndRevise t imp = .ok (r, t')) :
    t'.Good n ∧ ∀ i, r = some i → i < t'.itemsAmount := by
  by_cases hx : ∃ old ∈ t.entries, old.term = imp.term
  · obtain ⟨old, hold, hterm⟩ := hx
    obtain ⟨k1, k2⟩ := addAndRevise_known h.inv hold hterm
    rw [k1] at hadd
    simp only [R.bind_eq_ok] at hadd
    obtain ⟨_, _, _, _, rv, hrv, _, _, hadd⟩ := hadd
    obtain ⟨g1, g2⟩ := implicationRevision_good (h.good old hold) hi hrv
    cases hadd
    obtain ⟨k3, k4⟩ := k2 { rv with term := imp.term } rfl (by rw [g2]; exact h.inv.source old hold)
    refine ⟨⟨k4, ?_⟩, ?_⟩
    · intro e he
      rw [k3] at he
      rcases List.mem_cons.1 ((insert_perm _ _).mem_iff.1 he) with rfl | he
      · exact ⟨hi.term, g1.truth, g1.stamp⟩
      · exact h.good e (List.mem_of_mem_filter he)
    · intro i hri
      cases hri
      rw [← Table.entries_length, k3, (insert_perm _ _).length_eq, List.length_cons]
      exact Nat.lt_succ_of_le (List.takeWhile_sublist _).length_le
  · push Not at hx
    have hs : imp.sourceConcept.isSome := by
      by_contra hc
      have hf := t.findTerm_spec imp.term t.itemsAmount (Nat.le_refl _) (by intro m hm; omega)
      unfold Table_AddAndRevise at hadd
      cases hft : t.findTerm imp.term t.itemsAmount with
      | some i =>
        rw [hft] at hf
        exact hx _ (mem_entries.2 ⟨i, hf.1, rfl⟩) hf.2
      | none =>
        rw [hft] at hadd
        unfold Table_Add cassert at hadd
        rw [if_neg hc] at hadd
        cases hadd
    obtain ⟨t'', e1, e2, e3⟩ := addAndRevise_new h.inv hx hs
    rw [e1] at hadd
    cases hadd
    refine ⟨⟨e3, ?_⟩, ?_⟩
    · intro e he
      rw [e2] at he
      rcases List.mem_cons.1 ((insert_perm _ _).mem_iff.1 (List.mem_of_mem_take he)) with rfl | he
      · exact hi
      · exact h.good e he
    · intro i hri
      split at hri
      · cases hri
        rw [← Table.entries_length, e2, List.length_take, (insert_perm _ _).length_eq, List.length_cons]
        have := (List.takeWhile_sublist (TableSpec.keeps imp) (l := t.entries)).length_le
        omega
      · cases hri

theorem Table.Good.overwriteSource {t : Table} (h : t.Good n) {imp : Implication} {r : Option Nat}
    (hs : imp.sourceConcept.isSome) (hr : ∀ i, r = some i → i < t.itemsAmount) :
    (overwriteSource imp (r, t)).Good n := by
  unfold ONA.overwriteSource
  cases r with
  | none => exact h
  | some i =>
    simp only
    have hi := hr i rfl
    set x : Implication := { t.array i with sourceConcept := imp.sourceConcept, sourceConceptId := imp.sourceConceptId }
      with hx
    have key : ∀ k, k < t.itemsAmount → (upd t.array i x k).truth = (t.array k).truth ∧
        (upd t.array i x k).term = (t.array k).term ∧ (upd t.array i x k).stamp = (t.array k).stamp ∧
        (upd t.array i x k).sourceConcept.isSome := by
      intro k hk
      by_cases hki : k = i
      · subst hki; rw [upd_same]; exact ⟨rfl, rfl, rfl, hs⟩
      · rw [upd_other _ _ hki]
        exact ⟨rfl, rfl, rfl, h.inv.source _ (mem_entries.2 ⟨k, hk, rfl⟩)⟩
    have hlen := t.entries_length
    refine ⟨⟨h.inv.bound, ?_, ?_, ?_⟩, ?_⟩
    · have := h.inv.ranked
      unfold TableSpec.Ranked Table.entries at *
      rw [List.pairwise_map] at *
      refine List.Pairwise.imp_of_mem ?_ this
      intro a b ha hb hab
      have ha := (key a (List.mem_range.1 ha)).1
      have hb := (key b (List.mem_range.1 hb)).1
      simp only [ha, hb]
      exact hab
    · have := h.inv.nodup
      unfold TableSpec.NoDup Table.entries at *
      rw [List.pairwise_map] at *
      refine List.Pairwise.imp_of_mem ?_ this
      intro a b ha hb hab
      have ha := (key a (List.mem_range.1 ha)).2.1
      have hb := (key b (List.mem_range.1 hb)).2.1
      simp only [ha, hb]
      exact hab
    · intro e he
      obtain ⟨k, hk, rfl⟩ := mem_entries.1 he
      exact (key k hk).2.2.2
    · intro e he
      obtain ⟨k, hk, rfl⟩ := mem_entries.1 he
      have g := h.good _ (mem_entries.2 ⟨k, hk, rfl⟩)
      exact ⟨by show n.Knows (upd t.array i x k).term; rw [(key k hk).2.1]; exact g.term,
        by show (upd t.array i x k).truth.Valid; rw [(key k hk).1]; exact g.truth,
        by show (upd t.array i x k).stamp.WF; rw [(key k hk).2.2.1]; exact g.stamp⟩

theorem insert_getElem (x : Implication) (l : List Implication) :
    (TableSpec.insert x l)[(l.takeWhile (TableSpec.keeps x)).length]? = some x := by
  unfold TableSpec.insert
  rw [List.getElem?_append_right (le_refl _), Nat.sub_self]
  rfl

/-- What adding a link does to a table. -/
theorem Table.Good.add_shape {t t' : Table} (h : t.Good n) {imp : Implication} {r : Option Nat} (hi : imp.Good n)
    (hadd : Table_AddAndRevise t imp = .ok (r, t')) :
    ∃ (x : Implication) (rest : List Implication), x.term = imp.term ∧
      ((x.sourceConcept = imp.sourceConcept ∧ x.sourceConceptId = imp.sourceConceptId) ∨
        ∃ old ∈ t.entries, old.term = imp.term ∧ x.sourceConcept = old.sourceConcept ∧
          x.sourceConceptId = old.sourceConceptId) ∧
      (∀ e ∈ rest, e ∈ t.entries) ∧ (∀ e ∈ t.entries, e.term ≠ imp.term → e ∈ rest) ∧ rest.length ≤ t.entries.length ∧
      (rest.length = t.entries.length ∨ rest.length + 1 = t.entries.length) ∧
      t'.entries = (TableSpec.insert x rest).take TABLE_SIZE ∧ ∀ i, r = some i → (t'.array i).term = imp.term := by
  have hgood := h.add hi hadd
  by_cases hx : ∃ old ∈ t.entries, old.term = imp.term
  · obtain ⟨old, hold, hterm⟩ := hx
    obtain ⟨k1, k2⟩ := addAndRevise_known h.inv hold hterm
    rw [k1] at hadd
    simp only [R.bind_eq_ok] at hadd
    obtain ⟨_, _, _, _, rv, hrv, _, _, hadd⟩ := hadd
    have hsrc : rv.sourceConcept = old.sourceConcept ∧ rv.sourceConceptId = old.sourceConceptId := by
      unfold Inference_ImplicationRevision at hrv
      simp only [R.bind_eq_ok] at hrv
      obtain ⟨_, _, _, _, _, _, _, _, hrv⟩ := hrv
      cases hrv
      exact ⟨rfl, rfl⟩
    cases hadd
    obtain ⟨k3, k4⟩ := k2 { rv with term := imp.term } rfl (by rw [hsrc.1]; exact h.inv.source old hold)
    have hlen : (t.entries.filter fun e => decide (e.term ≠ imp.term)).length + 1 = t.entries.length := by
      obtain ⟨l1, l2, hl⟩ := List.append_of_mem hold
      have hp : t.entries.Perm (old :: (l1 ++ l2)) := by rw [hl]; exact List.perm_middle
      have hnd : TableSpec.NoDup (old :: (l1 ++ l2)) := by
        refine List.Pairwise.perm h.inv.nodup hp ?_
        intro a b hab
        exact Ne.symm hab
      have hf : ((old :: (l1 ++ l2)).filter fun e => decide (e.term ≠ imp.term)) = l1 ++ l2 := by
        rw [List.filter_cons_of_neg (by simpa using hterm), List.filter_eq_self]
        intro e he
        have := (List.pairwise_cons.1 hnd).1 e he
        exact decide_eq_true (fun h => this (hterm.trans h.symm))
      rw [(hp.filter _).length_eq, hf, hp.length_eq, List.length_cons]
    refine ⟨{ rv with term := imp.term }, t.entries.filter fun e => decide (e.term ≠ imp.term), rfl,
      .inr ⟨old, hold, hterm, hsrc.1, hsrc.2⟩, fun e he => List.mem_of_mem_filter he,
      fun e he hne => List.mem_filter.2 ⟨he, decide_eq_true hne⟩, List.length_filter_le _ _, .inr hlen, ?_, ?_⟩
    · rw [k3, List.take_of_length_le]
      rw [← k3, Table.entries_length]
      exact k4.bound
    · intro i hri
      cases hri
      have hlt := hgood.2 _ rfl
      have := insert_getElem { rv with term := imp.term } (t.entries.filter fun e => decide (e.term ≠ imp.term))
      rw [← k3, List.getElem?_eq_getElem (by rw [Table.entries_length]; exact hlt), Table.entries_getElem] at this
      rw [Option.some.inj this]
  · push Not at hx
    have hs : imp.sourceConcept.isSome := by
      by_contra hc
      have hf := t.findTerm_spec imp.term t.itemsAmount (Nat.le_refl _) (by intro m hm; omega)
      unfold Table_AddAndRevise at hadd
      cases hft : t.findTerm imp.term t.itemsAmount with
      | some i =>
        rw [hft] at hf
        exact hx _ (mem_entries.2 ⟨i, hf.1, rfl⟩) hf.2
      | none =>
        rw [hft] at hadd
        unfold Table_Add cassert at hadd
        rw [if_neg hc] at hadd
        cases hadd
    obtain ⟨t'', e1, e2, e3⟩ := addAndRevise_new h.inv hx hs
    rw [e1] at hadd
    cases hadd
    refine ⟨imp, t.entries, rfl, .inl ⟨rfl, rfl⟩, fun e he => he, fun e he _ => he, le_refl _, .inl rfl, e2, ?_⟩
    intro i hri
    have hlt := hgood.2 _ hri
    split at hri
    · rename_i hl
      cases hri
      have := insert_getElem imp t.entries
      rw [← Table.entries_getElem _ _ (by rw [Table.entries_length]; exact hlt)]
      have h2 : t'.entries[(t.entries.takeWhile (TableSpec.keeps imp)).length]? = some imp := by
        rw [e2, List.getElem?_take, if_pos hl]
        exact this
      rw [List.getElem?_eq_getElem (by rw [Table.entries_length]; exact hlt)] at h2
      rw [Option.some.inj h2]
    · cases hri

/-- A property of the statement and the source of links. -/
def OfSource (P : Term → Option Nat → Int → Prop) (i : Implication) : Prop := P i.term i.sourceConcept i.sourceConceptId

theorem Table.Good.add_links {t t' : Table} (h : t.Good n) {imp : Implication} {r : Option Nat} (hi : imp.Good n)
    (hadd : Table_AddAndRevise t imp = .ok (r, t')) {P : Term → Option Nat → Int → Prop} (ht : ∀ e ∈ t.entries, OfSource P e)
    (himp : OfSource P imp) : ∀ e ∈ t'.entries, OfSource P e := by
  obtain ⟨x, rest, h1, h2, h3, -, -, -, h5, -⟩ := h.add_shape hi hadd
  intro e he
  rw [h5] at he
  rcases List.mem_cons.1 ((insert_perm _ _).mem_iff.1 (List.mem_of_mem_take he)) with rfl | he
  · unfold OfSource
    rw [h1]
    rcases h2 with ⟨a, b⟩ | ⟨old, ho, a, b, c⟩
    · rw [a, b]; exact himp
    · rw [b, c, ← a]; exact ht old ho
  · exact ht e (h3 e he)

theorem overwriteSource_links {t : Table} {imp : Implication} {r : Option Nat}
    (hr : ∀ i, r = some i → (t.array i).term = imp.term) {P : Term → Option Nat → Int → Prop} (ht : ∀ e ∈ t.entries, OfSource P e)
    (himp : OfSource P imp) : ∀ e ∈ (overwriteSource imp (r, t)).entries, OfSource P e := by
  unfold ONA.overwriteSource
  cases r with
  | none => exact ht
  | some i =>
    intro e he
    obtain ⟨k, hk, rfl⟩ := mem_entries.1 he
    dsimp only at hk ⊢
    by_cases hki : k = i
    · subst hki
      rw [upd_same]
      show P (t.array k).term _ _
      rw [hr k rfl]
      exact himp
    · rw [upd_other _ _ hki]
      exact ht _ (mem_entries.2 ⟨k, hk, rfl⟩)

/-- Statement `x` is in the table, or the table is full. -/
def Table.Holds (t : Table) (x : Term) : Prop := (∃ e ∈ t.entries, e.term = x) ∨ t.entries.length = TABLE_SIZE

theorem Table.Good.add_holds {t t' : Table} (h : t.Good n) {imp : Implication} {r : Option Nat} (hi : imp.Good n)
    (hadd : Table_AddAndRevise t imp = .ok (r, t')) : t'.Holds imp.term ∧ ∀ x, t.Holds x → t'.Holds x := by
  obtain ⟨x, rest, h1, -, h3, h4, h6, h7, h5, -⟩ := h.add_shape hi hadd
  have hlen : (TableSpec.insert x rest).length = rest.length + 1 := by rw [(insert_perm _ _).length_eq, List.length_cons]
  have hb := h.inv.bound
  rw [← Table.entries_length] at hb
  have key : ∀ y, (∃ e ∈ TableSpec.insert x rest, e.term = y) → t'.Holds y := by
    intro y hy
    by_cases hle : rest.length + 1 ≤ TABLE_SIZE
    · left
      rw [h5, List.take_of_length_le (by omega)]
      exact hy
    · right
      rw [h5, List.length_take, hlen]
      omega
  refine ⟨key _ ⟨x, (insert_perm _ _).mem_iff.2 List.mem_cons_self, h1⟩, ?_⟩
  rintro y (⟨e, he, rfl⟩ | hfull)
  · by_cases hne : e.term = imp.term
    · rw [hne]
      exact key _ ⟨x, (insert_perm _ _).mem_iff.2 List.mem_cons_self, h1⟩
    · exact key _ ⟨e, (insert_perm _ _).mem_iff.2 (List.mem_cons_of_mem _ (h4 e he hne)), rfl⟩
  · right
    rw [h5, List.length_take, hlen]
    omega

omit [Arith] in
theorem overwriteSource_terms (imp : Implication) (r : Option Nat) (t : Table) :
    (overwriteSource imp (r, t)).entries.map (·.term) = t.entries.map (·.term) := by
  unfold ONA.overwriteSource
  cases r with
  | none => rfl
  | some i =>
    dsimp only
    unfold Table.entries
    rw [List.map_map, List.map_map]
    refine List.map_congr_left fun k _ => ?_
    show (upd t.array i _ k).term = _
    by_cases hki : k = i
    · subst hki; rw [upd_same]; rfl
    · rw [upd_other _ _ hki]; rfl

theorem overwriteSource_holds {imp : Implication} {r : Option Nat} {t : Table} {x : Term} (h : t.Holds x) :
    (overwriteSource imp (r, t)).Holds x := by
  have hm := overwriteSource_terms imp r t
  have hl : (overwriteSource imp (r, t)).entries.length = t.entries.length := by
    have := congrArg List.length hm
    simpa using this
  rcases h with ⟨e, he, rfl⟩ | h
  · left
    have : e.term ∈ (overwriteSource imp (r, t)).entries.map (·.term) := by rw [hm]; exact List.mem_map_of_mem he
    obtain ⟨e', h1, h2⟩ := List.mem_map.1 this
    exact ⟨e', h1, h2⟩
  · right
    rw [hl, h]

section
variable {mark : Int × Int × Int} {own : Event → Prop} {bad fit : Implication → Prop}

theorem TableStep.good {t t' : Table} (h : t.Good n) (st : TableStep n bad fit t t') : t'.Good n := by
  cases st with
  | remove i hi => exact h.remove hi
  | add _ imp r hi _ e => exact (h.add hi e).1
  | addAs t' imp r hi hs _ e =>
    obtain ⟨a, b⟩ := h.add hi e
    exact a.overwriteSource hs b

theorem TableStep.links {t t' : Table} (h : t.Good n) {P : Term → Option Nat → Int → Prop} (ht : ∀ e ∈ t.entries, OfSource P e)
    (hf : ∀ e, fit e → OfSource P e) (st : TableStep n bad fit t t') : ∀ e ∈ t'.entries, OfSource P e := by
  cases st with
  | remove i hi =>
    intro e he
    rw [Table.remove_entries _ _ hi] at he
    exact ht e ((List.eraseIdx_sublist _ _).subset he)
  | add _ imp r hi hfit e => exact h.add_links hi e ht (hf _ hfit)
  | addAs t' imp r hi hs hfit e =>
    obtain ⟨x, rest, h1, h2, h3, -, -, -, h5, h6⟩ := h.add_shape hi e
    exact overwriteSource_links h6 (h.add_links hi e ht (hf _ hfit)) (hf _ hfit)

theorem TableStep.holds {t t' : Table} (h : t.Good n) (hb : ∀ e ∈ t.entries, ¬ bad e) {x : Term} (hx : t.Holds x)
    (st : TableStep n bad fit t t') : t'.Holds x := by
  cases st with
  | remove i hi hbad => exact absurd hbad (hb _ (mem_entries.2 ⟨i, hi, rfl⟩))
  | add _ imp r hi hfit e => exact (h.add_holds hi e).2 x hx
  | addAs t' imp r hi hs hfit e => exact overwriteSource_holds ((h.add_holds hi e).2 x hx)

theorem TableSteps.good {t t' : Table} (h : t.Good n) (st : TableSteps n bad fit t t') : t'.Good n := by
  induction st with
  | refl => exact h
  | step _ st ih => exact st.good ih

theorem TableSteps.links {t t' : Table} (h : t.Good n) {P : Term → Option Nat → Int → Prop} (ht : ∀ e ∈ t.entries, OfSource P e)
    (hf : ∀ e, fit e → OfSource P e) (st : TableSteps n bad fit t t') : ∀ e ∈ t'.entries, OfSource P e := by
  induction st with
  | refl => exact ht
  | step st1 st2 ih => exact st2.links (st1.good h) ih hf

theorem TableSteps.holds {t t' : Table} (h : t.Good n) {P : Term → Option Nat → Int → Prop} (ht : ∀ e ∈ t.entries, OfSource P e)
    (hf : ∀ e, fit e → OfSource P e) (hb : ∀ e, OfSource P e → ¬ bad e) {x : Term} (hx : t.Holds x)
    (st : TableSteps n bad fit t t') : t'.Holds x := by
  induction st with
  | refl => exact hx
  | step st1 st2 ih => exact st2.holds (st1.good h) (fun e he => hb e (st1.links h ht hf e he)) ih

theorem TableSteps.trans {t t' t'' : Table} (h : TableSteps n bad fit t t') (h' : TableSteps n bad fit t' t'') :
    TableSteps n bad fit t t'' := by
  induction h' with
  | refl => exact h
  | step _ st ih => exact .step ih st

/-! ### Concepts -/

theorem revisionAndChoice_type {a b r : Event} {x : Bool} (h : Inference_RevisionAndChoice n a b = .ok (r, x)) :
    r.type = a.type ∨ r.type = b.type := by
  unfold Inference_RevisionAndChoice at h
  by_cases hd : a.type = .deleted
  · rw [if_pos hd] at h; cases h; exact Or.inr rfl
  · rw [if_neg hd] at h
    dsimp only at h
    generalize (if a.occurrenceTime > b.occurrenceTime then a.occurrenceTime else b.occurrenceTime) = later at h
    split at h
    · split at h
      · cases h; exact Or.inr rfl
      · cases h; exact Or.inl rfl
    · rw [R.bind_eq_ok] at h
      obtain ⟨v, e1, e2⟩ := h
      split at e2
      · cases e2
        unfold Inference_EventRevision at e1
        rw [R.bind_eq_ok] at e1
        obtain ⟨t, _, e3⟩ := e1
        cases e3
        exact Or.inl rfl
      · cases e2

/-- What becomes of two eternal events. -/
theorem revisionAndChoice_eternal {a b r : Event} {x : Bool} (ha : a.type ≠ .deleted → a.occurrenceTime = OCCURRENCE_ETERNAL)
    (hb : b.occurrenceTime = OCCURRENCE_ETERNAL) (h : Inference_RevisionAndChoice n a b = .ok (r, x)) :
    r.occurrenceTime = OCCURRENCE_ETERNAL ∧ (a.type ≠ .deleted → a.truth.confidence ≤ r.truth.confidence) := by
  unfold Inference_RevisionAndChoice at h
  by_cases hd : a.type = .deleted
  · rw [if_pos hd] at h
    cases h
    exact ⟨hb, fun h => absurd hd h⟩
  · rw [if_neg hd] at h
    have ha := ha hd
    have hp : ∀ t : Truth, Truth_Projection t OCCURRENCE_ETERNAL OCCURRENCE_ETERNAL = t := fun t => by
      unfold Truth_Projection
      simp
    simp only [ha, hb, gt_iff_lt, lt_irrefl, if_false, Inference_EventUpdate, hp] at h
    split at h
    · split at h
      · rename_i hlt
        cases h
        exact ⟨hb, fun _ => le_of_lt hlt⟩
      · cases h
        exact ⟨ha, fun _ => le_refl _⟩
    · rw [R.bind_eq_ok] at h
      obtain ⟨v, e1, e2⟩ := h
      split at e2
      · rename_i hge
        cases e2
        unfold Inference_EventRevision at e1
        rw [R.bind_eq_ok] at e1
        obtain ⟨t, _, e3⟩ := e1
        cases e3
        exact ⟨rfl, fun _ => hge⟩
      · cases e2

theorem ConceptStep.good {c c' : Concept} (h : c.Good n) (st : ConceptStep n mark own bad fit c c') : c'.Good n := by
  cases st with
  | attention u p i1 i2 i3 t hu hp _ => exact { h with useCount := hu, priority := hp }
  | belief e e' r t he het heo _ hr =>
    have := h.belief.revisionAndChoice he hr
    refine { h with belief := ⟨this.term, this.truth, this.stamp⟩, belief_type := ?_, belief_time := fun _ => (revisionAndChoice_eternal h.belief_time heo hr).1 }
    show e'.type ≠ .goal
    rcases revisionAndChoice_type hr with h1 | h1 <;> rw [h1]
    · exact h.belief_type
    · rw [het]; exact fun h => by cases h
  | belief_spike e he => exact { h with belief_spike := he }
  | predicted_belief e he => exact { h with predicted_belief := he }
  | goal_spike e he => exact { h with goal_spike := he }
  | precondition_beliefs opi t ht =>
    refine { h with precondition_beliefs := ?_ }
    intro k
    show (upd c.precondition_beliefs opi t k).Good n
    by_cases hk : k = opi
    · subst hk; rw [upd_same]; exact ht.good (h.precondition_beliefs k)
    · rw [upd_other _ _ hk]; exact h.precondition_beliefs k
  | implication_links t ht => exact { h with implication_links := ht.good h.implication_links }

theorem ConceptStep.same {c c' : Concept} (st : ConceptStep n mark own bad fit c c') : c'.id = c.id ∧ c'.term = c.term := by
  cases st <;> exact ⟨rfl, rfl⟩

theorem ConceptStep.marked {c c' : Concept} (st : ConceptStep n mark own bad fit c c') :
    Marked mark c c'.processID c'.processID2 c'.processID3 := by
  cases st with
  | attention _ _ _ _ _ _ _ _ h => exact h
  | _ => exact .same

end

end ONA
