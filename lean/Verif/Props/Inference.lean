import Verif.Model.Inference
import Verif.Props.Truth
import Verif.Props.Stamp
import Verif.Proofs.Tree
import Verif.Props.Narsese
/-
Properties of input events and of the inference functions (src/Event.c, src/Inference.c): C19, C25, C26, C53.
-/
namespace ONA

/-! ### C19: evidence of input events -/

/-- The arguments of an input event. -/
structure InputArgs where
  term : Term
  type : EventType
  truth : Truth
  offset : ℚ
  time : Int

/-- Entering a list of events one after the other. -/
def inputAll (g : EventGlobals) : List InputArgs → List Event × EventGlobals
  | [] => ([], g)
  | x :: l =>
    let (e, g) := Event_InputEvent g x.term x.type x.truth x.offset x.time
    let (es, g) := inputAll g l
    (e :: es, g)

theorem single_ids {b : Int} (h : b ≠ 0) : (Stamp.single b).ids = [b] :=
  Stamp.ids_of_prefix _ [b] (by simp [STAMP_SIZE]) (by simpa using h.symm)
    (by intro i hi; simp at hi; subst hi; rfl)
    (by intro i hi; simp at hi; simp; omega)

theorem input_plain (g : EventGlobals) (h : g.importstamp.evidentialBase 0 = 0) (x : InputArgs) :
    Event_InputEvent g x.term x.type x.truth x.offset x.time =
      (⟨x.term, x.type, x.truth, Stamp.single g.base, x.time, x.offset, false, x.time, true⟩,
       { g with base := g.base + 1 }) := by
  unfold Event_InputEvent
  simp [h]

/-- The event made of `x` with the single evidence id `b`. -/
def plainEvent (x : InputArgs) (b : Int) : Event :=
  ⟨x.term, x.type, x.truth, Stamp.single b, x.time, x.offset, false, x.time, true⟩

theorem inputAll_spec (l : List InputArgs) : ∀ (g : EventGlobals), g.importstamp.evidentialBase 0 = 0 →
    inputAll g l = (l.mapIdx fun i x => plainEvent x (g.base + i), { g with base := g.base + l.length }) := by
  induction l with
  | nil => intro g _; simp [inputAll]
  | cons x l ih =>
    intro g h
    have h2 := ih { g with base := g.base + 1 } h
    unfold inputAll
    rw [input_plain g h x]
    simp only [h2]
    simp only [List.mapIdx_cons, List.length_cons, Prod.mk.injEq, List.cons.injEq, EventGlobals.mk.injEq, and_true]
    refine ⟨⟨by simp [plainEvent], ?_⟩, by push_cast; omega⟩
    congr 1
    funext i x
    congr 1
    push_cast; omega

/-- **C19.** Without stamp import, any two events entered in a session (after program start or `Event_INIT`) have
disjoint evidential bases of exactly one id each, and each event carries exactly the data it was entered with. -/
theorem C19_independent (l : List InputArgs) (g : EventGlobals) (hg : g.importstamp.evidentialBase 0 = 0) :
    (inputAll (Event_INIT g) l).1.length = l.length ∧
    (∀ i (hi : i < (inputAll (Event_INIT g) l).1.length) (hi' : i < l.length),
      (∃ id, (inputAll (Event_INIT g) l).1[i].stamp.ids = [id]) ∧
      (inputAll (Event_INIT g) l).1[i].term = l[i].term ∧ (inputAll (Event_INIT g) l).1[i].type = l[i].type ∧
      (inputAll (Event_INIT g) l).1[i].truth = l[i].truth ∧ (inputAll (Event_INIT g) l).1[i].occurrenceTime = l[i].time ∧
      (inputAll (Event_INIT g) l).1[i].occurrenceTimeOffset = l[i].offset ∧
      (inputAll (Event_INIT g) l).1[i].creationTime = l[i].time) ∧
    ∀ i j (hi : i < (inputAll (Event_INIT g) l).1.length) (hj : j < (inputAll (Event_INIT g) l).1.length), i ≠ j →
      Stamp_checkOverlap (inputAll (Event_INIT g) l).1[i].stamp (inputAll (Event_INIT g) l).1[j].stamp = false := by
  rw [inputAll_spec l (Event_INIT g) hg]
  simp only [List.length_mapIdx, List.getElem_mapIdx]
  have hids : ∀ (x : InputArgs) (i : Nat), (plainEvent x ((Event_INIT g).base + i)).stamp.ids = [1 + (i : Int)] := by
    intro x i
    exact single_ids (by show (1 : Int) + i ≠ 0; omega)
  refine ⟨trivial, ?_, ?_⟩
  · intro i hi hi'
    exact ⟨⟨_, hids _ i⟩, rfl, rfl, rfl, rfl, rfl, rfl⟩
  · intro i j hi hj hij
    rw [Bool.eq_false_iff]
    intro hc
    obtain ⟨e, e1, e2⟩ := (C17_overlap_iff _ _).1 hc
    rw [hids _ i] at e1
    rw [hids _ j] at e2
    simp at e1 e2
    omega

/-- **C19 (import).** With an imported stamp, the next event carries exactly that stamp, no id is used up, and the
import is consumed. -/
theorem C19_import (g : EventGlobals) (h : g.importstamp.evidentialBase 0 ≠ 0) (x : InputArgs) :
    (Event_InputEvent g x.term x.type x.truth x.offset x.time).1.stamp = g.importstamp ∧
    (Event_InputEvent g x.term x.type x.truth x.offset x.time).2 = ⟨g.base, Stamp.zero⟩ := by
  unfold Event_InputEvent
  simp [h]

/-- Two events of a session, the first one a belief, the second a goal: the theorem applies with pairwise different
positions. -/
example : (inputAll (Event_INIT EventGlobals.start)
    [⟨Term.zero.put 0 64, .belief, ⟨1, 9 / 10⟩, 0, 1⟩, ⟨Term.zero.put 0 65, .goal, ⟨1, 9 / 10⟩, 0, 2⟩]).1.map (fun e => e.stamp.ids) = [[1], [2]] := by
  decide +kernel

section
variable [Arith]

/-! ### Event equality and eternalisation -/

omit [Arith] in
/-- Two events compare equal iff truth, time, term and evidence (as sets; for stamps with distinct ids) agree. -/
theorem Event_Equal_iff (a b : Event) (wb : b.stamp.WF)
    (ha : a.stamp.ids.Nodup) (hb : b.stamp.ids.Nodup) :
    Event_Equal a b = true ↔ a.truth = b.truth ∧ a.occurrenceTime = b.occurrenceTime ∧ a.term = b.term ∧
      ∀ e, e ∈ a.stamp.ids ↔ e ∈ b.stamp.ids := by
  unfold Event_Equal Truth_Equal
  rw [← C18_equal_iff a.stamp b.stamp wb ha hb]
  cases hta : a.truth
  cases htb : b.truth
  simp only [Bool.and_eq_true, decide_eq_true_iff, Truth.mk.injEq]
  tauto

/-- Eternalising keeps everything but time and confidence; it is the identity on eternal events and never raises
confidence. -/
theorem Event_Eternalized_spec (e : Event) (h : e.truth.Valid) :
    ∃ r, Event_Eternalized e = .ok r ∧ r.occurrenceTime = OCCURRENCE_ETERNAL ∧ r.term = e.term ∧ r.type = e.type ∧
      r.stamp = e.stamp ∧ r.occurrenceTimeOffset = e.occurrenceTimeOffset ∧ r.truth.Valid ∧
      r.truth.frequency = e.truth.frequency ∧ r.truth.confidence ≤ e.truth.confidence ∧
      (e.occurrenceTime = OCCURRENCE_ETERNAL → r = e) := by
  unfold Event_Eternalized
  by_cases ho : e.occurrenceTime = OCCURRENCE_ETERNAL
  · rw [if_neg (by simp [ho])]
    exact ⟨e, rfl, ho, rfl, rfl, rfl, rfl, h, rfl, le_refl _, fun _ => rfl⟩
  · rw [if_pos ho]
    obtain ⟨t, e1, e2, e3, e4⟩ := C20_eternalize e.truth h
    rw [e1]
    exact ⟨_, rfl, rfl, rfl, rfl, rfl, rfl, e2, e3, e4, fun hc => absurd hc ho⟩

/-! ### C53: temporal compounds -/

/-- A term that encodes a tree: it is not empty and every node has its parent. -/
def Term.Proper (t : Term) : Prop := t.Closed ∧ t.get 0 ≠ 0

/-- What a conclusion of two events inherits from them: all evidence comes from the premises, and it is as new as
the newer one. -/
def Merges (r : Stamp) (t : Int) (a b : Event) : Prop :=
  r = Stamp_make a.stamp b.stamp ∧ (∀ id ∈ r.ids, id ∈ a.stamp.ids ∨ id ∈ b.stamp.ids) ∧ t = max a.creationTime b.creationTime

/-- **C53 (sequences).** `Inference_BeliefIntersection` of an earlier-or-simultaneous `a` and `b` gives, whenever the
sequence fits into a term, the belief event "`a` and then `b`", at the time of `b`, with the merged evidence; it
is at most as confident as `b` and as `a` projected to that time. If it does not fit there is no result; if `b` is
earlier the process is stopped. -/
theorem C53_sequence (a b : Event) (ha : a.term.Proper) (hb : b.term.Proper) (hta : a.truth.Valid) (htb : b.truth.Valid) :
    (b.occurrenceTime < a.occurrenceTime → ∃ m, Inference_BeliefIntersection a b = .error (.assertFail m)) ∧
    (a.occurrenceTime ≤ b.occurrenceTime → ¬ (Tree.node (copulaAtom SEQUENCE) a.term.tree b.term.tree).Fits 0 →
      Inference_BeliefIntersection a b = .ok none) ∧
    (a.occurrenceTime ≤ b.occurrenceTime → (Tree.node (copulaAtom SEQUENCE) a.term.tree b.term.tree).Fits 0 →
      ∃ r, Inference_BeliefIntersection a b = .ok (some r) ∧
        r.term.tree = .node (copulaAtom SEQUENCE) a.term.tree b.term.tree ∧ r.term.Proper ∧
        r.type = .belief ∧ r.occurrenceTime = b.occurrenceTime ∧ Merges r.stamp r.creationTime a b ∧
        r.truth = Truth_Intersection (Truth_Projection a.truth a.occurrenceTime b.occurrenceTime) b.truth ∧ r.truth.Valid ∧
        r.truth.confidence ≤ (Truth_Projection a.truth a.occurrenceTime b.occurrenceTime).confidence ∧
        r.truth.confidence ≤ b.truth.confidence) := by
  obtain ⟨k1, k2⟩ := buildCompound_spec (copulaAtom SEQUENCE) a.term b.term (by decide) ha.1 hb.1 ha.2 hb.2
  unfold Inference_BeliefIntersection Narsese_Sequence
  refine ⟨?_, ?_, ?_⟩
  · intro h
    unfold cassert
    rw [if_neg (by simpa using h)]
    exact ⟨_, rfl⟩
  · intro h hf
    rw [cassert_true (by simpa using h)]
    have : (buildCompound (copulaAtom SEQUENCE) a.term b.term).1 = false := by
      rw [Bool.eq_false_iff]; intro hc; exact hf (k1.1 hc)
    simp [this]
  · intro h hf
    rw [cassert_true (by simpa using h)]
    have hok := k1.2 hf
    obtain ⟨c1, c2⟩ := k2 hok
    obtain ⟨p1, p2, -⟩ := C23_projection a.truth hta a.occurrenceTime b.occurrenceTime
    obtain ⟨v1, v2⟩ := Truth_Intersection_valid p1 htb
    simp only [R.ok_bind, hok, if_true]
    refine ⟨_, rfl, c2, ⟨c1, ?_⟩, rfl, rfl, ⟨rfl, C16_only_premises _ _, rfl⟩, rfl, v1, v2, ?_⟩
    · intro h0
      have := (Term.treeAt_eq_nil (buildCompound (copulaAtom SEQUENCE) a.term b.term).2 0).2 h0
      rw [show Term.treeAt (buildCompound (copulaAtom SEQUENCE) a.term b.term).2 0 = _ from c2] at this
      cases this
    · exact fmul_le_right p1.c htb.c

/-- **C53 (implications).** The same for `Inference_BeliefInduction`: the temporal implication "`a` leads to `b`", whose
time offset is the (non-negative) distance between the events. -/
theorem C53_induction (a b : Event) (ha : a.term.Proper) (hb : b.term.Proper) (hta : a.truth.Valid) (htb : b.truth.Valid) :
    (b.occurrenceTime < a.occurrenceTime → ∃ m, Inference_BeliefInduction a b = .error (.assertFail m)) ∧
    (a.occurrenceTime ≤ b.occurrenceTime → ¬ (Tree.node (copulaAtom TEMPORAL_IMPLICATION) a.term.tree b.term.tree).Fits 0 →
      Inference_BeliefInduction a b = .ok none) ∧
    (a.occurrenceTime ≤ b.occurrenceTime → (Tree.node (copulaAtom TEMPORAL_IMPLICATION) a.term.tree b.term.tree).Fits 0 →
      ∃ r, Inference_BeliefInduction a b = .ok (some r) ∧
        r.term.tree = .node (copulaAtom TEMPORAL_IMPLICATION) a.term.tree b.term.tree ∧ r.term.Proper ∧
        Merges r.stamp r.creationTime a b ∧
        r.occurrenceTimeOffset = rnd ((b.occurrenceTime - a.occurrenceTime : Int) : ℚ) ∧ 0 ≤ r.occurrenceTimeOffset ∧
        Truth_Induction b.truth (Truth_Projection a.truth a.occurrenceTime b.occurrenceTime) = .ok r.truth ∧ r.truth.Valid ∧
        r.truth.frequency = b.truth.frequency ∧
        r.truth.confidence ≤ (Truth_Projection a.truth a.occurrenceTime b.occurrenceTime).confidence ∧
        r.truth.confidence ≤ b.truth.confidence) := by
  obtain ⟨k1, k2⟩ := buildCompound_spec (copulaAtom TEMPORAL_IMPLICATION) a.term b.term (by decide) ha.1 hb.1 ha.2 hb.2
  unfold Inference_BeliefInduction
  refine ⟨?_, ?_, ?_⟩
  · intro h
    unfold cassert
    rw [if_neg (by simpa using h)]
    exact ⟨_, rfl⟩
  · intro h hf
    rw [cassert_true (by simpa using h)]
    have : (buildCompound (copulaAtom TEMPORAL_IMPLICATION) a.term b.term).1 = false := by
      rw [Bool.eq_false_iff]; intro hc; exact hf (k1.1 hc)
    simp [this]
  · intro h hf
    rw [cassert_true (by simpa using h)]
    have hok := k1.2 hf
    obtain ⟨c1, c2⟩ := k2 hok
    obtain ⟨p1, p2, -⟩ := C23_projection a.truth hta a.occurrenceTime b.occurrenceTime
    obtain ⟨t, e1, e2, e3, e4⟩ := Truth_Abduction_valid p1 htb
    have ef : t.frequency = b.truth.frequency := by
      unfold Truth_Abduction at e1
      simp only [R.bind_eq_ok] at e1
      obtain ⟨_, _, e1⟩ := e1
      cases e1; rfl
    have ei : Truth_Induction b.truth (Truth_Projection a.truth a.occurrenceTime b.occurrenceTime) = .ok t := e1
    simp only [R.ok_bind, hok, if_true, ei]
    refine ⟨_, rfl, c2, ⟨c1, ?_⟩, ⟨rfl, C16_only_premises _ _, rfl⟩, rfl, ?_, rfl, e2, ef, e3, e4⟩
    · intro h0
      have := (Term.treeAt_eq_nil (buildCompound (copulaAtom TEMPORAL_IMPLICATION) a.term b.term).2 0).2 h0
      rw [show Term.treeAt (buildCompound (copulaAtom TEMPORAL_IMPLICATION) a.term b.term).2 0 = _ from c2] at this
      cases this
    · show 0 ≤ rnd _
      apply rnd_nonneg
      exact_mod_cast (by omega : (0 : Int) ≤ b.occurrenceTime - a.occurrenceTime)

/-! ### C25, C26: revision and choice -/

/-- The conditions under which two events about the same thing must not be pooled: shared evidence, an existential
statement (a conjunction or sequence with a dependent variable), different times of the occurrence (unless the
stored one is eternal), or different terms. -/
def MustChoose (n : Narsese) (existing incoming : Event) : Prop :=
  (∃ id, id ∈ existing.stamp.ids ∧ id ∈ incoming.stamp.ids) ∨
  ((Narsese_copulaEquals n (incoming.term.get 0) CONJUNCTION = true ∨
    Narsese_copulaEquals n (incoming.term.get 0) SEQUENCE = true) ∧
    ∃ i, i < COMPOUND_TERM_SIZE_MAX ∧ Variable_isDependentVariable n (incoming.term.get i) = true) ∨
  (existing.occurrenceTime ≠ OCCURRENCE_ETERNAL ∧ existing.occurrenceTime ≠ incoming.occurrenceTime) ∨
  existing.term ≠ incoming.term

/-- Confidence of an event seen from time `t`. -/
def confidenceAt (e : Event) (t : Int) : ℚ := (Truth_Projection e.truth e.occurrenceTime t).confidence

omit [Arith] in
theorem mustChoose_iff (n : Narsese) (existing incoming : Event) :
    (Stamp_checkOverlap incoming.stamp existing.stamp || ((Narsese_copulaEquals n (incoming.term.get 0) CONJUNCTION ||
      Narsese_copulaEquals n (incoming.term.get 0) SEQUENCE) &&
      Variable_hasVariable n incoming.term false true false) ||
        (decide (existing.occurrenceTime ≠ OCCURRENCE_ETERNAL) &&
          decide (existing.occurrenceTime ≠ incoming.occurrenceTime)) ||
        !decide (existing.term = incoming.term)) = true ↔ MustChoose n existing incoming := by
  unfold MustChoose
  simp only [Bool.or_eq_true, Bool.and_eq_true, decide_eq_true_iff, Bool.not_eq_true', decide_eq_false_iff_not]
  rw [C17_overlap_symm, C17_overlap_iff]
  have hv : Variable_hasVariable n incoming.term false true false = true ↔
      ∃ i, i < COMPOUND_TERM_SIZE_MAX ∧ Variable_isDependentVariable n (incoming.term.get i) = true := by
    unfold Variable_hasVariable
    simp [List.any_eq_true]
  rw [hv, or_assoc, or_assoc]

/-- **C25 (choice).** If the events must not be pooled, the result is one of the two, unchanged: the more confident one at
the later of the two times (the stored one if they are equally confident). -/
theorem C25_choice (n : Narsese) (existing incoming : Event) (hd : existing.type ≠ .deleted)
    (h : MustChoose n existing incoming) :
    let later := max existing.occurrenceTime incoming.occurrenceTime
    Inference_RevisionAndChoice n existing incoming =
      .ok (if confidenceAt existing later < confidenceAt incoming later then incoming else existing, false) := by
  intro later
  have hl : (if existing.occurrenceTime > incoming.occurrenceTime then existing.occurrenceTime
      else incoming.occurrenceTime) = later := by
    split <;> omega
  unfold Inference_RevisionAndChoice
  rw [if_neg hd]
  simp only [hl]
  rw [if_pos ((mustChoose_iff n existing incoming).2 h)]
  unfold Inference_EventUpdate confidenceAt
  simp only
  split <;> rfl

/-- **C25 (revision).** Otherwise the events are pooled (if their confidences are below 1 and not both 0, and the stored
one is at most `MAX_CONFIDENCE`): same term and type, truth by the revision rule, merged evidence, at the time of
the incoming event, and not less confident than the stored event. -/
theorem C25_revision (n : Narsese) (existing incoming : Event) (hd : existing.type ≠ .deleted)
    (h : ¬ MustChoose n existing incoming) (h1 : existing.truth.Valid) (h2 : incoming.truth.Valid)
    (hc1 : existing.truth.confidence ≤ MAX_CONFIDENCE) (hc2 : incoming.truth.confidence < 1)
    (hpos : 0 < existing.truth.confidence ∨ 0 < incoming.truth.confidence)
    (hlate : existing.occurrenceTime ≤ incoming.occurrenceTime) :
    ∃ r, Inference_RevisionAndChoice n existing incoming = .ok (r, true) ∧ r.term = existing.term ∧
      r.type = existing.type ∧ Truth_Revision existing.truth incoming.truth = .ok r.truth ∧ r.truth.Valid ∧
      r.occurrenceTime = incoming.occurrenceTime ∧ Merges r.stamp r.creationTime existing incoming ∧
      existing.truth.confidence ≤ r.truth.confidence ∧ min MAX_CONFIDENCE incoming.truth.confidence ≤ r.truth.confidence ∧
      r.truth.confidence ≤ MAX_CONFIDENCE := by
  have hn := h
  unfold MustChoose at hn
  push Not at hn
  obtain ⟨-, -, htime, hterm⟩ := hn
  have hl : (if existing.occurrenceTime > incoming.occurrenceTime then existing.occurrenceTime
      else incoming.occurrenceTime) = incoming.occurrenceTime := if_neg (by omega)
  have hmax : MAX_CONFIDENCE < 1 := lt_of_le_of_lt MAX_CONFIDENCE_range.2 (by norm_num)
  -- projection changes nothing
  have pe : Truth_Projection existing.truth existing.occurrenceTime incoming.occurrenceTime = existing.truth := by
    obtain ⟨-, -, -, q1, q2, -⟩ := C23_projection existing.truth h1 existing.occurrenceTime incoming.occurrenceTime
    by_cases he : existing.occurrenceTime = OCCURRENCE_ETERNAL
    · exact q1 he
    · rw [← htime he]; exact q2
  have pi : Truth_Projection incoming.truth incoming.occurrenceTime incoming.occurrenceTime = incoming.truth :=
    (C23_projection incoming.truth h2 incoming.occurrenceTime incoming.occurrenceTime).2.2.2.2.1
  have pe2 : Truth_Projection existing.truth incoming.occurrenceTime incoming.occurrenceTime = existing.truth :=
    (C23_projection existing.truth h1 incoming.occurrenceTime incoming.occurrenceTime).2.2.2.2.1
  obtain ⟨t, e1, e2, e3, e4, e5⟩ := C22_revision_defined_partial existing.truth incoming.truth h1 h2
    (lt_of_le_of_lt hc1 hmax) hc2 hpos
  rw [min_eq_right hc1] at e4
  unfold Inference_RevisionAndChoice
  rw [if_neg hd]
  simp only [hl]
  rw [if_neg (fun hc => h ((mustChoose_iff n existing incoming).1 hc))]
  unfold Inference_EventRevision Inference_EventUpdate
  simp only [pe, pi, pe2, e1, R.ok_bind]
  rw [if_pos e4]
  exact ⟨_, rfl, rfl, rfl, rfl, e2, rfl, ⟨rfl, C16_only_premises _ _, rfl⟩, e4, e5, e3⟩

/-- **C25 (first event).** An empty slot takes the incoming event. -/
theorem C25_empty (n : Narsese) (existing incoming : Event) (h : existing.type = .deleted) :
    Inference_RevisionAndChoice n existing incoming = .ok (incoming, false) := by
  unfold Inference_RevisionAndChoice
  rw [if_pos h]

/-- **C25 (no double counting).** Whatever the arguments: evidence is pooled only for equal terms, from disjoint
evidential bases; otherwise the result is one of the arguments, unchanged. -/
theorem C25_pooled_only_if_disjoint (n : Narsese) (existing incoming r : Event) (revised : Bool)
    (hr : Inference_RevisionAndChoice n existing incoming = .ok (r, revised)) :
    (revised = true → (¬ ∃ id, id ∈ existing.stamp.ids ∧ id ∈ incoming.stamp.ids) ∧ existing.term = incoming.term ∧
      (existing.occurrenceTime = OCCURRENCE_ETERNAL ∨ existing.occurrenceTime = incoming.occurrenceTime)) ∧
    (revised = false → r = existing ∨ r = incoming) := by
  by_cases hd : existing.type = .deleted
  · rw [C25_empty n existing incoming hd] at hr
    cases hr
    exact ⟨fun h => (by cases h), fun _ => Or.inr rfl⟩
  · by_cases h : MustChoose n existing incoming
    · have := C25_choice n existing incoming hd h
      simp only at this
      rw [this] at hr
      cases hr
      refine ⟨fun h => (by cases h), fun _ => ?_⟩
      split
      · exact Or.inr rfl
      · exact Or.inl rfl
    · unfold Inference_RevisionAndChoice at hr
      rw [if_neg hd] at hr
      simp only at hr
      rw [if_neg (fun hc => h ((mustChoose_iff n existing incoming).1 hc))] at hr
      have hn := h
      unfold MustChoose at hn
      push Not at hn
      obtain ⟨g1, -, g3, g4⟩ := hn
      simp only [R.bind_eq_ok] at hr
      obtain ⟨rv, -, hr⟩ := hr
      by_cases hcf : rv.truth.confidence ≥ (Inference_EventUpdate existing (if existing.occurrenceTime > incoming.occurrenceTime
          then existing.occurrenceTime else incoming.occurrenceTime)).truth.confidence
      · rw [if_pos hcf] at hr
        cases hr
        refine ⟨fun _ => ⟨?_, g4, ?_⟩, fun h => (by cases h)⟩
        · rintro ⟨id, i1, i2⟩; exact g1 id i1 i2
        · by_cases he : existing.occurrenceTime = OCCURRENCE_ETERNAL
          · exact Or.inl he
          · exact Or.inr (g3 he)
      · rw [if_neg hcf] at hr
        cases hr

/-- **C26 (what holds).** Revision-or-choice of valid events, both at most `MAX_CONFIDENCE` confident and the incoming one
not of confidence 0, never stops the process, and never makes the stored event less confident. (Missing: input
confidences above `MAX_CONFIDENCE`, see `C26_abort`, and zero.) -/
theorem C26_no_abort_partial (n : Narsese) (existing incoming : Event) (h1 : existing.truth.Valid) (h2 : incoming.truth.Valid)
    (hc1 : existing.truth.confidence ≤ MAX_CONFIDENCE) (hc2 : incoming.truth.confidence ≤ MAX_CONFIDENCE)
    (hpos : 0 < incoming.truth.confidence) (ht : 0 ≤ incoming.occurrenceTime ∨ existing.occurrenceTime = OCCURRENCE_ETERNAL ∧
      incoming.occurrenceTime = OCCURRENCE_ETERNAL) :
    ∃ r revised, Inference_RevisionAndChoice n existing incoming = .ok (r, revised) ∧ r.truth.Valid ∧
      r.truth.confidence ≤ MAX_CONFIDENCE ∧
      (existing.type ≠ .deleted → confidenceAt existing (max existing.occurrenceTime incoming.occurrenceTime) ≤
        confidenceAt r (max existing.occurrenceTime incoming.occurrenceTime)) := by
  have hmax : MAX_CONFIDENCE < 1 := lt_of_le_of_lt MAX_CONFIDENCE_range.2 (by norm_num)
  by_cases hd : existing.type = .deleted
  · exact ⟨_, _, C25_empty n existing incoming hd, h2, hc2, fun h => absurd hd h⟩
  · by_cases h : MustChoose n existing incoming
    · refine ⟨_, _, C25_choice n existing incoming hd h, ?_⟩
      split
      · rename_i hlt
        exact ⟨h2, hc2, fun _ => le_of_lt hlt⟩
      · exact ⟨h1, hc1, fun _ => le_refl _⟩
    · have hn := h
      unfold MustChoose at hn
      push Not at hn
      obtain ⟨-, -, g3, -⟩ := hn
      have hlate : existing.occurrenceTime ≤ incoming.occurrenceTime := by
        by_cases he : existing.occurrenceTime = OCCURRENCE_ETERNAL
        · rcases ht with ht | ht
          · rw [he]; unfold OCCURRENCE_ETERNAL; omega
          · rw [ht.1, ht.2]
        · rw [g3 he]
      obtain ⟨r, e1, -, -, -, e5, e6, -, e8, -, e10⟩ := C25_revision n existing incoming hd h h1 h2 hc1
        (lt_of_le_of_lt hc2 hmax) (Or.inr hpos) hlate
      refine ⟨r, true, e1, e5, e10, fun _ => ?_⟩
      rw [max_eq_right hlate]
      unfold confidenceAt
      rw [e6, (C23_projection r.truth e5 incoming.occurrenceTime incoming.occurrenceTime).2.2.2.2.1]
      exact le_trans (C23_projection existing.truth h1 _ _).2.2.1 e8

end

/-! ### Negative result for C26 and examples (exact arithmetic) -/
section
attribute [local instance] exactArith

/-- An eternal input belief about the atomic term 64. -/
def eternalBelief (c : ℚ) (id : Int) : Event :=
  { Event.zero with term := Term.zero.put 0 64, type := .belief, truth := ⟨1, c⟩, stamp := Stamp.single id
                    occurrenceTime := OCCURRENCE_ETERNAL }

/-- **C26 is false of the code.** A statement is entered twice as an eternal belief with confidence 0.995 (independent
evidence): the revised confidence is capped at 0.99, below the stored one, and the process is stopped. This
happens in every session, for every term that is not a conjunction or sequence with variables. -/
theorem C26_abort (n : Narsese) (a b : Event) (h : ¬ MustChoose n a b) (hd : a.type ≠ .deleted)
    (ha : a.truth = ⟨1, 995 / 1000⟩) (hb : b.truth = ⟨1, 995 / 1000⟩) (ta : a.occurrenceTime = OCCURRENCE_ETERNAL)
    (tb : b.occurrenceTime = OCCURRENCE_ETERNAL) :
    ∃ m, Inference_RevisionAndChoice n a b = .error (.assertFail m) := by
  unfold Inference_RevisionAndChoice
  rw [if_neg hd]
  simp only [ta, tb]
  have hm := (mustChoose_iff n a b)
  rw [ta, tb] at hm
  rw [if_neg (fun hc => h (hm.1 hc))]
  unfold Inference_EventRevision Inference_EventUpdate Truth_Projection
  simp only [ta, tb, ha, hb, if_true, lt_irrefl, if_false]
  obtain ⟨-, e⟩ := revision_exact ⟨1, 995 / 1000⟩ ⟨1, 995 / 1000⟩ (by norm_num) (by norm_num) (by norm_num) (by norm_num)
    (Or.inl (by norm_num))
  rw [e]
  simp only [R.ok_bind]
  rw [if_neg (by norm_num [NAL.weight])]
  exact ⟨_, rfl⟩

/-- The hypotheses are met in a session: entering `cat` twice with confidence 0.995 stops the process. -/
theorem C26_abort_reachable : ∃ h n i, Narsese.Session h n ∧ (['c', 'a', 't'], i) ∈ h ∧ ∃ m,
    Inference_RevisionAndChoice n
      { eternalBelief (995 / 1000) 1 with term := Term.zero.put 0 (toAtom i) }
      { eternalBelief (995 / 1000) 2 with term := Term.zero.put 0 (toAtom i) } = .error (.assertFail m) := by
  obtain ⟨n0, e0, r0, c0, _⟩ := initWith_spec ATOMS_MAX (by decide)
  have hnot : truncName ['c', 'a', 't'] ∉ allInitialNames := by decide +kernel
  obtain ⟨n, e1, r1, -⟩ := r0.index_new (s := ['c', 'a', 't']) hnot (by rw [c0]; decide +kernel)
  have hs : Narsese.Session [(['c', 'a', 't'], (initialNames ++ [['S', 'E', 'L', 'F']]).length + 1)] n := .call (.start e0) e1
  have hlen : (initialNames ++ [['S', 'E', 'L', 'F']]).length + 1 = 64 := by decide +kernel
  rw [hlen] at hs
  refine ⟨_, n, 64, hs, by simp, C26_abort n _ _ ?_ (by simp [eternalBelief]) rfl rfl rfl rfl⟩
  unfold MustChoose
  have hg0 : (Term.zero.put 0 (toAtom 64)).get 0 = 64 := by decide +kernel
  push Not
  refine ⟨?_, ?_, ?_, rfl⟩
  · intro id h1
    have h1' : id ∈ (Stamp.single 1).ids := h1
    show id ∉ (Stamp.single 2).ids
    rw [single_ids (by decide)] at h1' ⊢
    simp at h1' ⊢; omega
  · intro hc
    exfalso
    rcases hc with hc | hc
    · have := (C32_copulaEquals _ n hs CONJUNCTION (by decide) _).1 hc
      exact absurd this (by decide +kernel)
    · have := (C32_copulaEquals _ n hs SEQUENCE (by decide) _).1 hc
      exact absurd this (by decide +kernel)
  · intro h1; exact absurd rfl h1

/-- A concrete case for C53: two events three steps apart give a sequence with decayed confidence. -/
example : ∃ a b r, a.occurrenceTime = 2 ∧ b.occurrenceTime = 5 ∧ Inference_BeliefIntersection a b = .ok (some r) ∧
    r.occurrenceTime = 5 ∧ r.truth.confidence = (9 / 10) * (8 / 10) ^ 3 * (9 / 10) := by
  refine ⟨{ eternalBelief (9 / 10) 1 with occurrenceTime := 2 }, { eternalBelief (9 / 10) 2 with occurrenceTime := 5 }, _, rfl, rfl, rfl, rfl, ?_⟩
  show (9 / 10 : ℚ) * (8 / 10) ^ 3 * (9 / 10) = _
  rfl

end
end ONA
