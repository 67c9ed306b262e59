import Verif.Spec.Anticipation
import Verif.Proofs.ClosedDecision
import Verif.Proofs.Subgoals
import Verif.Props.Table
import Verif.Props.Memory
/-
C79: anticipation uses every valid link, and only expectations which follow from observations; it never makes a link stronger.
-/
namespace ONA
open TableSpec
variable [Arith]
variable {n : Narsese}

open Classical in
theorem pruneLoop_clean {s : Sys} : ∀ (m k : Nat) (t t' : Table) (pre rest : List Implication), pre.length = k → rest.length = m →
    t.entries = pre ++ rest → pruneLoop s m k t = .ok t' → t'.entries = pre ++ rest.filter fun link => s.LinkValid link := by
  intro m
  induction m with
  | zero =>
    intro k t t' pre rest _ hr he e
    cases e
    rw [List.length_eq_zero_iff] at hr
    subst hr
    exact he
  | succ m ih =>
    intro k t t' pre rest hk hr he e
    cases rest with
    | nil => cases hr
    | cons imp rest =>
      have hlen : t.itemsAmount = pre.length + (rest.length + 1) := by rw [← Table.entries_length, he]; simp
      have hi : t.array k = imp := by
        have h1 := Table.entries_getElem t k (by rw [Table.entries_length, hlen]; omega)
        rw [← h1]
        simp [he, ← hk]
      unfold pruneLoop at e
      rw [R.bind_eq_ok] at e
      obtain ⟨v, hv, e⟩ := e
      rw [hi] at hv
      split at e
      · rename_i hv'
        subst hv'
        have := ih (k + 1) t t' (pre ++ [imp]) rest (by simp [hk]) (by simpa using hr) (by rw [he, List.append_assoc]; rfl) e
        rw [this, List.filter_cons_of_pos (by simpa using valid_iff.1 hv), List.append_assoc]
        rfl
      · rename_i hv'
        have hn : ¬ s.LinkValid imp := fun h => hv' (by rw [valid_iff.2 h] at hv; cases hv; rfl)
        have := ih k (Table_Remove t k) t' pre rest hk (by simpa using hr)
          (by rw [Table.remove_entries _ _ (by omega), he, ← hk, List.eraseIdx_append_of_length_le (Nat.le_refl _), Nat.sub_self]; rfl) e
        rw [this, List.filter_cons_of_neg (by simpa using hn)]

theorem prune_clean {s : Sys} {t t' : Table} (e : pruneTable s t = .ok t') : CleanedUp s t t' := by
  have := pruneLoop_clean _ 0 t t' [] t.entries rfl (by rw [Table.entries_length]) rfl e
  exact this

/-! ### The negative evidence -/

theorem overwriteSource_entries {imp : Implication} {t : Table} {i : Nat} {x : Implication} (hi : i < t.entries.length)
    (hx : t.entries[i] = x) :
    (overwriteSource imp (some i, t)).entries = t.entries.set i { x with
      sourceConcept := imp.sourceConcept, sourceConceptId := imp.sourceConceptId } := by
  rw [Table.entries_getElem] at hx
  subst hx
  apply List.ext_getElem
  · rw [List.length_set, Table.entries_length, Table.entries_length]; rfl
  · intro k h1 h2
    rw [Table.entries_getElem, List.getElem_set]
    show (upd t.array i _ : Nat → Implication) k = _
    rw [upd_apply]
    by_cases hk : k = i
    · subst hk
      rw [if_pos rfl, if_pos rfl]
    · rw [if_neg hk, if_neg (fun h => hk h.symm), Table.entries_getElem]

theorem insert_getElem? (x : Implication) (l : List Implication) :
    (TableSpec.insert x l)[(l.takeWhile (keeps x)).length]? = some x := by
  unfold TableSpec.insert
  rw [List.getElem?_append_right (Nat.le_refl _), Nat.sub_self]
  rfl

theorem insert_set (x y : Implication) (l : List Implication) :
    ((TableSpec.insert x l).set (l.takeWhile (keeps x)).length y).Perm (y :: l) := by
  unfold TableSpec.insert
  rw [List.set_append_right _ _ (Nat.le_refl _), Nat.sub_self]
  show (_ ++ y :: _).Perm _
  refine List.perm_middle.trans (.cons _ ?_)
  rw [List.takeWhile_append_dropWhile]

theorem weakens {s s' : Sys} (h : Good n s) {e : Event} {link : Implication} (hs : link.sourceConcept.isSome) {op c : Nat} (x : Unit)
    (hrun : Decision_AddNegativeConfirmation e link op c s = .ok (x, s')) :
    ∃ v, Disappointment s e link v ∧ Weakens op c link v s s' := by
  unfold Decision_AddNegativeConfirmation at hrun
  rw [M.bind_ok] at hrun
  obtain ⟨_, _, e0, hrun⟩ := hrun
  rw [M.get_ok] at e0
  obtain ⟨rfl, rfl⟩ := e0
  rw [M.bind_ok] at hrun
  obtain ⟨neg, _, e1, hrun⟩ := hrun
  rw [M.lift_ok] at e1
  obtain ⟨e1, rfl⟩ := e1
  rw [M.bind_ok] at hrun
  obtain ⟨⟨r, t⟩, _, e2, hrun⟩ := hrun
  rw [M.lift_ok] at e2
  obtain ⟨e2, rfl⟩ := e2
  unfold modifyConcept at hrun
  rw [M.modify_ok] at hrun
  unfold negativeConfirmation at e1
  simp only [R.bind_eq_ok] at e1
  obtain ⟨ind, i1, v, i2, _, _, i4⟩ := e1
  cases i4
  have hg := ((h.concepts c).precondition_beliefs op).inv
  refine ⟨v, ⟨ind, i1, i2⟩, overwriteSource { link with truth := v, stamp := Stamp.zero } (r, t), hrun.symm, ?_, ?_⟩
  · intro old hold hterm
    obtain ⟨k1, k2⟩ := addAndRevise_known hg (x := { link with truth := v, stamp := Stamp.zero }) hold hterm
    rw [k1] at e2
    simp only [R.bind_eq_ok] at e2
    obtain ⟨_, _, _, _, rv, hrv, _, _, e2⟩ := e2
    have hsrc : rv.sourceConcept = old.sourceConcept ∧ Truth_Revision old.truth v = .ok rv.truth := by
      unfold Inference_ImplicationRevision at hrv
      simp only [R.bind_eq_ok] at hrv
      obtain ⟨_, _, _, _, _, h3, _, _, hr⟩ := hrv
      cases hr
      first
      | exact ⟨rfl, h3⟩
      | exact ⟨rfl, by assumption⟩
    have k3 := (k2 { rv with term := link.term } rfl (by rw [hsrc.1]; exact hg.source old hold)).1
    cases e2
    dsimp only at k3
    have hget := insert_getElem? { rv with term := link.term } ((s.linksFor c op).filter fun e => decide (e.term ≠ link.term))
    obtain ⟨hlt, hget⟩ := List.getElem?_eq_some_iff.1 hget
    refine ⟨{ rv with term := link.term, sourceConcept := link.sourceConcept, sourceConceptId := link.sourceConceptId },
      rfl, hsrc.2, rfl, rfl, ?_⟩
    rw [overwriteSource_entries (x := { rv with term := link.term }) (by rw [k3]; exact hlt) (by simp only [k3]; exact hget), k3]
    exact insert_set _ _ _
  · intro hx l hl
    obtain ⟨t', k1, k2, k3⟩ := addAndRevise_new hg (x := { link with truth := v, stamp := Stamp.zero }) hx hs
    rw [k1] at e2
    cases e2
    split at hl
    · rename_i hlen
      have hget := insert_getElem? { link with truth := v, stamp := Stamp.zero } (s.linksFor c op)
      have hget' : t.entries[((s.linksFor c op).takeWhile (keeps { link with truth := v, stamp := Stamp.zero })).length]? =
          some { link with truth := v, stamp := Stamp.zero } := by
        rw [k2]
        exact (List.getElem?_take_of_lt hlen).trans hget
      obtain ⟨hlt, hget'⟩ := List.getElem?_eq_some_iff.1 hget'
      rw [show ((s.concept_storage c).precondition_beliefs op).entries = s.linksFor c op from rfl] at hl
      rw [overwriteSource_entries hlt hget'] at hl
      rcases List.mem_or_eq_of_mem_set hl with hl | hl
      · rw [k2] at hl
        have := (insert_perm _ _).mem_iff.1 (List.mem_of_mem_take hl)
        rcases List.mem_cons.1 this with rfl | h
        · exact .inr ⟨rfl, rfl⟩
        · exact .inl h
      · subst hl
        exact .inr ⟨rfl, rfl⟩
    · have hl : l ∈ t.entries := hl
      rw [k2] at hl
      have := (insert_perm _ _).mem_iff.1 (List.mem_of_mem_take hl)
      rcases List.mem_cons.1 this with rfl | h
      · exact .inr ⟨rfl, rfl⟩
      · exact .inl h

/-! ### One link -/

theorem sameOperation_iff {op : Nat} {opTerm : Term} {link : Implication} {e : Event} {b : Bool}
    (h : sameOperation n op opTerm link e = .ok b) : b = true ↔ ByOperation n op opTerm link e := by
  unfold sameOperation at h
  unfold ByOperation
  by_cases ho : op > 0
  · rw [if_pos ho] at h
    dsimp only at h
    rw [R.bind_eq_ok] at h
    obtain ⟨subs, h1, h⟩ := h
    by_cases hs : subs.success = true
    · rw [if_pos hs, R.bind_eq_ok] at h
      obtain ⟨⟨t, r⟩, h2, h⟩ := h
      dsimp only at h
      by_cases hr : r = true
      · subst hr
        rw [if_pos rfl, R.bind_eq_ok] at h
        obtain ⟨subs2, h3, h⟩ := h
        cases h
        constructor
        · exact fun h => .inr ⟨subs, subs2, t, h1, hs, h2, h3, h⟩
        · rintro (h | ⟨subs', subs2', t', k1, _, k2, k3, k4⟩)
          · omega
          · cases h1.symm.trans k1
            cases h2.symm.trans k2
            cases h3.symm.trans k3
            exact k4
      · rw [if_neg hr] at h
        cases h
        refine ⟨fun h => (by cases h), ?_⟩
        rintro (h | ⟨subs', subs2', t', k1, _, k2, k3, k4⟩)
        · omega
        · cases h1.symm.trans k1
          cases h2.symm.trans k2
          exact absurd rfl hr
    · rw [if_neg hs] at h
      cases h
      refine ⟨fun h => (by cases h), ?_⟩
      rintro (h | ⟨subs', subs2', t', k1, k2, _⟩)
      · omega
      · cases h1.symm.trans k1
        exact absurd k2 hs
  · rw [if_neg ho] at h
    cases h
    exact ⟨fun _ => .inl (by omega), fun _ => rfl⟩

theorem relevant_iff {threshold : ℚ} {link : Implication} {r : Event} :
    anticipationRelevant n threshold link r = true ↔
      (Narsese_copulaEquals n (link.term.get 0) IMPLICATION = true ∨ threshold < Truth_Expectation r.truth ∨
        r.truth.confidence < SUBSUMPTION_CONFIDENCE_THRESHOLD ∧ r.truth.frequency = 0) := by
  unfold anticipationRelevant
  simp only [Bool.or_eq_true, Bool.and_eq_true, decide_eq_true_eq, gt_iff_lt, or_assoc]

/-- The event is computed as described. -/
theorem anticipated_deduced {op : Nat} {link : Implication} {e : Event} {now : Int} {o : Option Event}
    (h : anticipated n op link e now = .ok o) (r : Event) :
    (∃ both, Inference_BeliefIntersection e (performed now) = .ok (some both) ∧
      Inference_BeliefDeduction n (if op = 0 then e else both) link = .ok r) ↔ o = some r := by
  unfold anticipated at h
  simp only [R.bind_eq_ok] at h
  obtain ⟨_, _, x, e1, h⟩ := h
  have e1 : Inference_BeliefIntersection e (performed now) = .ok x := e1
  rw [e1]
  cases x with
  | none =>
    cases h
    constructor
    · rintro ⟨_, h, _⟩; cases h
    · intro h; cases h
  | some both =>
    dsimp only at h
    rw [R.bind_eq_ok] at h
    obtain ⟨r', e2, e3⟩ := h
    cases e3
    constructor
    · rintro ⟨_, h, h'⟩
      cases h
      rw [e2] at h'
      cases h'
      rfl
    · intro h
      cases h
      exact ⟨both, rfl, e2⟩

omit [Arith] in
theorem upd_twice {β : Type} (f : Nat → β) (i : Nat) (x y : β) : upd (upd f i x) i y = upd f i y := by
  funext k
  simp only [upd_apply]
  split <;> rfl

theorem recorded {s : Sys} {link : Implication} {p c : Nat} {e : Event} {now : Int} :
    WP (recordAnticipation n link p e c now) (fun _ s' => Noted n now link p c e s s') s := by
  unfold recordAnticipation
  refine WP.get ?_
  refine WP.ite (fun ho => ?_) fun ho => WP.pure (.dependent (by simpa using ho))
  have ho : Stamp_checkOverlap (s.concept_storage p).belief_spike.stamp link.stamp = false := by simpa using ho
  unfold modifyConcept
  refine WP.bind (WP.modify ?_)
  refine WP.get ?_
  refine WP.ite (fun ht => ?_) fun ht => WP.ite (fun hs => ?_) fun hs => WP.pure ?_
  · refine WP.bind (WP.lift fun r e1 => WP.modify ?_)
    dsimp only at e1
    rw [upd_same] at e1
    have := Noted.predicted (now := now) r.1 r.2 ho ht e1
    unfold Sys.withConcept at this
    dsimp only
    rw [upd_same, upd_twice]
    exact this
  · refine WP.bind (WP.lift fun r e1 => WP.modify ?_)
    dsimp only at e1
    rw [upd_same] at e1
    have := Noted.inferred (now := now) r.1 r.2 ho (by simpa using ht) (by simpa [upd_same] using hs) e1
    unfold Sys.withConcept at this
    dsimp only
    rw [upd_same, upd_twice]
    exact this
  · exact Noted.known ho (by simpa using ht) (by simpa [upd_same] using hs)

theorem foreseen {s : Sys} {link : Implication} {p : Nat} {r : Event} {now : Int} :
    WP (do
      let current := (← get).concept_storage p
      let subs ← Variable_Unify n current.term current.belief_spike.term
      if subs.success then
        let t ← Variable_ApplySubstitute n r.term subs
        if t.2 then
          match (← Memory_Conceptualize n t.1 now) with
          | none => pure ()
          | some c => recordAnticipation n link p { r with term := t.1 } c now : M Unit)
      (fun _ s' => Foresees n now link p r s s') s := by
  refine WP.get (WP.bind (WP.lift fun subs h1 => ?_))
  refine WP.ite (fun hs => ?_) fun hs => WP.pure (.different subs h1 (by simpa using hs))
  refine WP.bind (WP.lift fun t h2 => ?_)
  obtain ⟨t, b⟩ := t
  refine WP.ite (fun hb => ?_) fun hb => WP.pure (.large subs t h1 hs (by
    have : b = false := by simpa using hb
    rw [h2, this]))
  have hb : b = true := hb
  subst hb
  refine WP.bind fun c s1 h3 => ?_
  cases c with
  | none => exact WP.pure (.refused subs t _ h1 hs h2 h3)
  | some c => exact recorded.mono fun _ s' h => .noted subs t c s1 s' h1 hs h2 h3 h

theorem handled {s : Sys} (h : Good n s) {op : Nat} {opTerm : Term} {now : Int} {c : Nat} {link : Implication}
    (hs : link.sourceConcept.isSome) :
    WP (anticipateWith n op opTerm now c link) (fun _ s' => Handled n op opTerm now c link s s') s := by
  unfold anticipateWith
  cases hsrc : link.sourceConcept with
  | none => exact WP.throw
  | some p =>
    dsimp only
    refine WP.get ?_
    refine WP.ite (fun hd => ?_) fun hd => WP.pure (.nothing ?_)
    rotate_left
    · intro p' r hx
      cases hsrc.symm.trans hx.source
      exact hd hx.observed
    refine WP.bind (WP.lift fun b hb => ?_)
    refine WP.ite (fun hb' => ?_) fun hb' => WP.pure (.nothing ?_)
    rotate_left
    · intro p' r hx
      cases hsrc.symm.trans hx.source
      exact hb' ((sameOperation_iff hb).2 hx.operation)
    refine WP.bind (WP.lift fun o ho => ?_)
    cases o with
    | none =>
      refine WP.pure (.nothing ?_)
      intro p' r hx
      cases hsrc.symm.trans hx.source
      cases (anticipated_deduced ho r).1 hx.deduced
    | some r =>
      dsimp only
      refine WP.ite (fun hr => ?_) fun hr => WP.pure (.nothing ?_)
      rotate_left
      · intro p' r' hx
        cases hsrc.symm.trans hx.source
        cases (anticipated_deduced ho r').1 hx.deduced
        exact hr (relevant_iff.2 hx.strong)
      have hx : Expects n s op opTerm now link p r :=
        ⟨hsrc, hd, (sameOperation_iff hb).1 hb', (anticipated_deduced ho r).2 rfl, relevant_iff.1 hr⟩
      refine WP.ite (fun ht => ?_) fun ht => ?_
      · refine WP.bind fun x s1 e1 => ?_
        obtain ⟨v, h1, h2⟩ := weakens h hs x e1
        exact foreseen.mono fun _ s' h3 => .temporal p r v s1 s' hx ht h1 h2 h3
      · exact foreseen.mono fun _ s' h3 => .timeless p r s' hx (by simpa using ht) h3

/-! ### All links -/

theorem InTurn.mono {α : Type} {each each' : α → Sys → Sys → Prop} (h : ∀ a s s', each a s s' → each' a s s') {l : List α} {s s' : Sys}
    (i : InTurn each l s s') : InTurn each' l s s' := by
  induction i with
  | nil s => exact .nil s
  | cons a l s s1 s' h1 _ ih => exact .cons a l s s1 s' (h _ _ _ h1) ih

theorem inTurn {α : Type} {I : Sys → Prop} {each : α → Sys → Sys → Prop} {body : α → M Unit} : ∀ (l : List α),
    (∀ a ∈ l, Keeps I (body a) fun _ => True) → (∀ a ∈ l, ∀ s, I s → WP (body a) (fun _ s' => each a s s') s) →
    ∀ s, I s → WP (l.forM body) (fun _ s' => InTurn (fun a s s' => each a s s' ∧ I s ∧ I s') l s s' ∧ I s') s := by
  intro l
  induction l with
  | nil => intro _ _ s hs; exact WP.pure ⟨.nil s, hs⟩
  | cons a l ih =>
    intro hk hw s hs x s' e
    obtain ⟨_, s1, e1, e2⟩ := M.bind_ok.1 e
    have h1 := (hk a (List.mem_cons_self ..) s _ s1 hs e1).1
    have h2 := hw a (List.mem_cons_self ..) s hs _ s1 e1
    obtain ⟨h3, h4⟩ := ih (fun b hb => hk b (List.mem_cons_of_mem _ hb)) (fun b hb => hw b (List.mem_cons_of_mem _ hb)) s1 h1 _ s' e2
    exact ⟨.cons a l s s1 s' ⟨h2, hs, h1⟩ h3, h4⟩

/-- A visit, with invariants. -/
def VisitedIn (n : Narsese) (op : Nat) (opTerm : Term) (now : Int) (c : Nat) (declarative : Bool) (s s' : Sys) : Prop :=
  ∃ (links : List Implication) (s1 : Sys),
    (declarative = false ∧ (∃ t : Table, CleanedUp s ((s.concept_storage c).precondition_beliefs op) t ∧ links = t.entries ∧
      s1 = s.withConcept c { s.concept_storage c with precondition_beliefs := upd (s.concept_storage c).precondition_beliefs op t }) ∨
    declarative = true ∧ op = 0 ∧ (∃ t : Table, CleanedUp s (s.concept_storage c).implication_links t ∧ links = t.entries ∧
      s1 = s.withConcept c { s.concept_storage c with implication_links := t }) ∨
    declarative = true ∧ op ≠ 0 ∧ links = [] ∧ s1 = s) ∧
    Good n s1 ∧ InTurn (fun link s s' => Handled n op opTerm now c link s s' ∧ Good n s ∧ Good n s') links s1 s'

theorem VisitedIn.visited {op : Nat} {opTerm : Term} {now : Int} {c : Nat} {declarative : Bool} {s s' : Sys}
    (h : VisitedIn n op opTerm now c declarative s s') : Visited n op opTerm now c s s' declarative := by
  obtain ⟨links, s1, h1, _, h3⟩ := h
  have h3 := h3.mono (each' := Handled n op opTerm now c) fun _ _ _ h => h.1
  rcases h1 with ⟨rfl, t, ht, rfl, rfl⟩ | ⟨rfl, ho, t, ht, rfl, rfl⟩ | ⟨rfl, ho, rfl, rfl⟩
  · exact .temporal t ht h3
  · exact .declarative t ho ht h3
  · cases h3
    exact .none ho rfl

theorem anticipationLinks_clean {op : Nat} {declarative : Bool} {c : Nat} {s : Sys} :
    WP (anticipationLinks op declarative c) (fun links s1 =>
      declarative = false ∧ (∃ t : Table, CleanedUp s ((s.concept_storage c).precondition_beliefs op) t ∧ links = t.entries ∧
        s1 = s.withConcept c { s.concept_storage c with precondition_beliefs := upd (s.concept_storage c).precondition_beliefs op t }) ∨
      declarative = true ∧ op = 0 ∧ (∃ t : Table, CleanedUp s (s.concept_storage c).implication_links t ∧ links = t.entries ∧
        s1 = s.withConcept c { s.concept_storage c with implication_links := t }) ∨
      declarative = true ∧ op ≠ 0 ∧ links = [] ∧ s1 = s) s := by
  unfold anticipationLinks
  refine WP.get ?_
  refine WP.ite (fun hd => ?_) fun hd => WP.ite (fun ho => ?_) fun ho => WP.pure ?_
  · refine WP.bind (WP.lift fun t e => ?_)
    exact WP.bind (WP.modify (WP.pure (.inl ⟨by simpa using hd, t, prune_clean e, rfl, rfl⟩)))
  · refine WP.bind (WP.lift fun t e => ?_)
    exact WP.bind (WP.modify (WP.pure (.inr (.inl ⟨by simpa using hd, ho, t, prune_clean e, rfl, rfl⟩))))
  · exact .inr (.inr ⟨by simpa using hd, ho, rfl, rfl⟩)

/-- The loop over the concepts, with a relation which is kept by the visits. -/
theorem anticipation_loop {op : Nat} {opTerm : Term} {declarative : Bool} {now : Int} {s s' : Sys} (h : Good n s) (x : Unit)
    (e : Decision_Anticipate n op opTerm declarative now s = .ok (x, s')) (P : Nat → Sys → Sys → Prop)
    (hdone : ∀ j s, s.concepts.itemsAmount ≤ j → P j s s)
    (hnext : ∀ j s s1 s', j < s.concepts.itemsAmount → (s.concepts.items j).address ∈ s.live → Good n s →
      VisitedIn n op opTerm now (s.concepts.items j).address declarative s s1 → P (j + 1) s1 s' → P j s s') :
    P 0 s s' := by
  unfold Decision_Anticipate at e
  rw [M.bind_ok] at e
  obtain ⟨_, s0, e0, e⟩ := e
  rw [M.lift_ok] at e0
  obtain ⟨_, rfl⟩ := e0
  rw [M.bind_ok] at e
  obtain ⟨_, _, e0, e⟩ := e
  rw [M.get_ok] at e0
  obtain ⟨rfl, rfl⟩ := e0
  rw [M.bind_ok] at e
  obtain ⟨k, s2, e1, e⟩ := e
  rw [M.pure_ok] at e
  obtain ⟨_, rfl⟩ := e
  revert e1
  generalize s.concepts.maxElements + 1 = fuel
  generalize (0 : Nat) = j
  revert s j k
  induction fuel with
  | zero => intro s h k j e; cases e
  | succ fuel ih =>
    intro s h k j e
    unfold loopM at e
    rw [M.bind_ok] at e
    obtain ⟨b, s1, e1, e⟩ := e
    rw [M.bind_ok] at e1
    obtain ⟨_, _, e0, e1⟩ := e1
    rw [M.get_ok] at e0
    obtain ⟨rfl, rfl⟩ := e0
    by_cases hj : j < s.concepts.itemsAmount
    · rw [if_pos hj, M.bind_ok] at e1
      obtain ⟨links, s3, e2, e1⟩ := e1
      rw [M.bind_ok] at e1
      obtain ⟨_, s4, e3, e1⟩ := e1
      rw [M.pure_ok] at e1
      obtain ⟨rfl, rfl⟩ := e1
      have hp : (s.concepts.items j).address ∈ s.live := List.mem_map.2 ⟨s.concepts.items j, List.mem_map.2 ⟨j, List.mem_range.2 hj, rfl⟩, rfl⟩
      obtain ⟨hs1, hl⟩ := (good_closed n).anticipationLinks _ _ _ h hp _ _ e2
      have hc : Closed n fun t => Good n t ∧ ∀ i ∈ links, LinkLasts (s.concepts.items j).address i t :=
        (good_closed n).and fun hs hl st i hi => (hl i hi).stable (st.stable hs)
      obtain ⟨h5, h6⟩ := inTurn (I := fun t => Good n t ∧ ∀ i ∈ links, LinkLasts (s.concepts.items j).address i t)
        (each := Handled n op opTerm now (s.concepts.items j).address) links
        (fun i hi => hc.anticipateWith _ _ _ _ (hl i hi).1.1 (hl i hi).1.2 fun hs => hs.2 i hi)
        (fun i hi s hs => handled hs.1 (hl i hi).1.2) s3 ⟨hs1, fun i hi => (hl i hi).2⟩ _ _ e3
      refine hnext j s _ _ hj hp h ⟨links, s3, anticipationLinks_clean _ _ e2, hs1, h5.mono fun _ _ _ h => ⟨h.1, h.2.1.1, h.2.2.1⟩⟩ ?_
      exact ih h6.1 _ _ e
    · rw [if_neg hj, M.pure_ok] at e1
      obtain ⟨rfl, rfl⟩ := e1
      have e : (Pure.pure j : M Nat) _ = .ok (k, _) := e
      rw [M.pure_ok] at e
      obtain ⟨_, rfl⟩ := e
      exact hdone j _ (not_lt.1 hj)

/-- **C79.** Anticipation: the concepts are visited in the order of the memory. At each, the links whose condition was forgotten
are removed, and every other link is used: if its condition was observed, its operation is the one which was executed, and what
follows is expected enough, then the link is weakened, as if the prediction had failed (`Disappointment`), and the prediction is
noted in its concept, provided that the observation and the link are based on different evidence. Nothing else happens. -/
theorem C79_anticipate {op : Nat} {opTerm : Term} {declarative : Bool} {now : Int} {s s' : Sys} (h : Good n s)
    (e : Decision_Anticipate n op opTerm declarative now s = .ok ((), s')) : Anticipated n op opTerm declarative now 0 s s' :=
  anticipation_loop h () e (Anticipated n op opTerm declarative now) .done
    fun j s s1 s' hj hp _ hv hr => .next j s s1 s' hj hp hv.visited hr

end ONA
