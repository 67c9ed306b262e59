import Verif.Spec.Decision
import Verif.Proofs.Table
import Verif.Proofs.Mute
import Verif.Proofs.ClosedDecision
/-
The search for the best candidate.
-/
namespace ONA

theorem mem_live {s : Sys} {c : Nat} : c ∈ s.live ↔ ∃ k, k < s.concepts.itemsAmount ∧ (s.concepts.items k).address = c := by
  simp [Sys.live, PriorityQueue.contents]

theorem lt_takeWhile {α : Type} {p : α → Bool} : ∀ (l : List α) (k : Nat),
    k < (l.takeWhile p).length ↔ k < l.length ∧ ∀ j, j ≤ k → ∀ a, l[j]? = some a → p a = true := by
  intro l
  induction l with
  | nil => intro k; simp
  | cons a l ih =>
    intro k
    by_cases ha : p a = true
    · rw [List.takeWhile_cons_of_pos ha]
      cases k with
      | zero => simp [ha]
      | succ k =>
        simp only [List.length_cons, Nat.add_lt_add_iff_right, ih]
        constructor
        · rintro ⟨h1, h2⟩
          refine ⟨h1, ?_⟩
          rintro (_ | j) hj b hb
          · simp at hb; rw [← hb]; exact ha
          · exact h2 j (by omega) b (by simpa using hb)
        · rintro ⟨h1, h2⟩
          exact ⟨h1, fun j hj b hb => h2 (j + 1) (by omega) b (by simpa using hb)⟩
    · rw [List.takeWhile_cons_of_neg ha]
      simp only [List.length_nil, Nat.not_lt_zero, false_iff, not_and]
      intro _ h
      exact ha (h 0 (by omega) a (by simp))

theorem lt_operationCount {s : Sys} {k : Nat} : k < s.operationCount ↔ s.Registered (k + 1) := by
  unfold Sys.operationCount Sys.Registered
  rw [lt_takeWhile]
  simp only [List.length_range, List.getElem?_range]
  constructor
  · rintro ⟨h1, h2⟩
    refine ⟨by omega, by omega, fun j hj => ?_⟩
    have := h2 j (by omega) j (by rw [List.getElem?_range (by omega)])
    simpa using this
  · rintro ⟨-, h1, h2⟩
    refine ⟨by omega, fun j hj a ha => ?_⟩
    rw [List.getElem?_range (by omega)] at ha
    cases ha
    simpa using h2 j (by omega)

theorem anyM_ok {α : Type} {f : α → R Bool} : ∀ {l : List α} {b : Bool}, l.anyM f = .ok b →
    if b = true then ∃ a ∈ l, f a = .ok true else ∀ a ∈ l, f a = .ok false := by
  intro l
  induction l with
  | nil =>
    intro b h
    cases h
    simp
  | cons a l ih =>
    intro b h
    rw [List.anyM, R.bind_eq_ok] at h
    obtain ⟨c, e, h⟩ := h
    cases c with
    | true => cases h; exact ⟨a, List.mem_cons_self, e⟩
    | false =>
      have := ih h
      cases b with
      | true =>
        obtain ⟨x, hx, ex⟩ := this
        exact ⟨x, List.mem_cons_of_mem _ hx, ex⟩
      | false =>
        intro x hx
        rcases List.mem_cons.1 hx with rfl | hx
        · exact e
        · exact this x hx

variable [Arith] {n : Narsese}

theorem mem_operationLinks {s : Sys} {gc : Nat} {imp : Implication} :
    imp ∈ s.operationLinks gc ↔ ∃ opk, s.Registered opk ∧ imp ∈ s.linksFor gc opk := by
  unfold Sys.operationLinks
  simp only [List.mem_flatMap, List.mem_range, lt_operationCount]
  constructor
  · rintro ⟨k, hk, h⟩; exact ⟨k + 1, hk, h⟩
  · rintro ⟨opk, hk, h⟩
    obtain ⟨k, rfl⟩ : ∃ k, opk = k + 1 := ⟨opk - 1, by have := hk.1; omega⟩
    exact ⟨k, hk, h⟩

theorem hasCloser_iff {s : Sys} {gc : Nat} {c : Concept} {q : ℚ} {b : Bool} (h : hasCloserPreconditionLink n s gc c q = .ok b) :
    b = true ↔ CloserLink n s gc c q := by
  unfold hasCloserPreconditionLink at h
  have := anyM_ok h
  constructor
  · rintro rfl
    obtain ⟨imp, hi, e⟩ := this
    obtain ⟨opk, hk, hl⟩ := mem_operationLinks.1 hi
    rw [R.bind_eq_ok] at e
    obtain ⟨subs, e1, e2⟩ := e
    have e3 : (subs.success && decide (subs.truth.confidence > q)) = true := by injection e2
    rw [Bool.and_eq_true, decide_eq_true_iff] at e3
    exact ⟨opk, hk, imp, hl, subs, e1, e3.1, e3.2⟩
  · rintro ⟨opk, hk, imp, hl, subs, e1, hs, hq⟩
    cases b with
    | true => rfl
    | false =>
      have e := this imp (mem_operationLinks.2 ⟨opk, hk, hl⟩)
      rw [R.bind_eq_ok] at e
      obtain ⟨subs', e2, e3⟩ := e
      rw [e1] at e2
      cases e2
      have e4 : (subs.success && decide (subs.truth.confidence > q)) = false := by injection e3
      simp [hs, not_le.2 hq] at e4

theorem inhibited_iff {s : Sys} (hm : MemInv n s) {opi : Nat} {specific : Term} {rel : List Implication}
    (h : relatedLinks s opi specific = .ok rel) :
    (rel.any fun r => decide (r.truth.confidence > SUBSUMPTION_CONFIDENCE_THRESHOLD) &&
      decide (r.truth.frequency < SUBSUMPTION_FREQUENCY_THRESHOLD)) = true ↔ Inhibited s opi specific := by
  unfold relatedLinks at h
  rw [R.bind_eq_ok] at h
  obtain ⟨o, e, h⟩ := h
  obtain ⟨r, e1, hr⟩ := hm.find_eq (Term_ExtractSubterm specific 2)
  unfold Memory_FindConceptByTerm at e1
  rw [M.bind_ok] at e1
  obtain ⟨s1, s2, eg, e1⟩ := e1
  rw [M.get_ok] at eg
  obtain ⟨rfl, rfl⟩ := eg
  rw [M.lift_ok, e] at e1
  obtain ⟨e1, -⟩ := e1
  cases e1
  cases o with
  | none =>
    cases h
    simp only [List.any_nil, Bool.false_eq_true, false_iff]
    rintro ⟨c, hc, ht, -⟩
    exact hr c hc ht
  | some c =>
    cases h
    rw [List.any_eq_true]
    constructor
    · rintro ⟨x, hx, hp⟩
      rw [List.mem_filter] at hx
      rw [Bool.and_eq_true, decide_eq_true_iff, decide_eq_true_iff] at hp
      exact ⟨c, hr.1, hr.2, x, hx.1, (by simpa using hx.2 : specific = x.term).symm, hp⟩
    · rintro ⟨c', hc', ht, x, hx, hxt, hp⟩
      have : c' = c := hm.term_inj hc' hr.1 (ht.trans hr.2.symm)
      subst this
      refine ⟨x, List.mem_filter.2 ⟨hx, by simp [hxt]⟩, ?_⟩
      rw [Bool.and_eq_true, decide_eq_true_iff, decide_eq_true_iff]
      exact hp

/-- Two decisions which do the same. -/
def Decision.Same (d d' : Decision) : Prop :=
  d.desire = d'.desire ∧ d.operationID = d'.operationID ∧ d.arguments = d'.arguments ∧ d.reason = d'.reason

/-- The result of trying the candidates in `C`. -/
def Tried (C : Decision → Prop) (best r : Candidate) : Prop :=
  best.decision.desire ≤ r.decision.desire ∧ (∀ d, C d → d.desire ≤ r.decision.desire) ∧
    (r = best ∨ ∃ d, C d ∧ r.decision.Same d)

omit [Arith] in
theorem Tried.none {C : Decision → Prop} {best : Candidate} (h : ∀ d, ¬ C d) : Tried C best best :=
  ⟨le_refl _, fun d hd => absurd hd (h d), .inl rfl⟩

omit [Arith] in
theorem Tried.fold {α : Type} {C : α → Decision → Prop} {f : Candidate → α → R Candidate} : ∀ (l : List α),
    (∀ b, ∀ a ∈ l, ∀ r, f b a = .ok r → Tried (C a) b r) →
    ∀ b r, l.foldlM f b = .ok r → Tried (fun d => ∃ a ∈ l, C a d) b r := by
  intro l
  induction l with
  | nil =>
    intro _ b r e
    cases e
    exact Tried.none (by simp)
  | cons a l ih =>
    intro h b r e
    rw [List.foldlM_cons, R.bind_eq_ok] at e
    obtain ⟨b', e1, e2⟩ := e
    obtain ⟨p1, p2, p3⟩ := h b a List.mem_cons_self b' e1
    obtain ⟨q1, q2, q3⟩ := ih (fun b x hx => h b x (List.mem_cons_of_mem _ hx)) b' r e2
    refine ⟨p1.trans q1, ?_, ?_⟩
    · rintro d ⟨x, hx, hd⟩
      rcases List.mem_cons.1 hx with rfl | hx
      · exact (p2 d hd).trans q1
      · exact q2 d ⟨x, hx, hd⟩
    · rcases q3 with rfl | ⟨d, ⟨x, hx, hd⟩, hs⟩
      · rcases p3 with rfl | ⟨d, hd, hs⟩
        · exact .inl rfl
        · exact .inr ⟨d, ⟨a, List.mem_cons_self, hd⟩, hs⟩
      · exact .inr ⟨d, ⟨x, List.mem_cons_of_mem _ hx, hd⟩, hs⟩

omit [Arith] in
theorem Tried.better {C : Decision → Prop} {d d' : Decision} (hd : C d) (hu : ∀ d', C d' → d' = d) (hs : d'.Same d)
    (imp link sp : Implication) (opi : Nat) (best : Candidate) : Tried C best (betterCandidate d' imp link sp opi best) := by
  unfold betterCandidate
  dsimp only
  split
  · rename_i h
    have h1 : best.decision.desire ≤ d'.desire := by
      rw [Bool.or_eq_true, Bool.and_eq_true, decide_eq_true_iff, decide_eq_true_iff] at h
      rcases h with h | ⟨h, -⟩
      · exact le_of_lt h
      · exact le_of_eq h.symm
    refine ⟨h1, fun x hx => ?_, .inr ⟨d, hd, hs⟩⟩
    rw [hu x hx]
    exact le_of_eq hs.1.symm
  · rename_i h
    refine ⟨le_refl _, fun x hx => ?_, .inl rfl⟩
    rw [hu x hx, ← hs.1]
    by_contra hlt
    apply h
    simp [lt_of_not_ge hlt]

/-- A candidate with a given fact and instantiated link. -/
def FactFor (n : Narsese) (s : Sys) (gc : Nat) (goal : Event) (now : Int) (opi : Nat) (link : Implication) (generic : Bool)
    (general : Term) (cell : Nat) (d : Decision) : Prop :=
  ∃ (subs2 : Substitution) (specific : Term),
    Variable_hasVariable n (s.termOf cell) true true true = false ∧
    (s.concept_storage cell).belief_spike.type ≠ .deleted ∧
    s.unifyWithAnalogy n (s.concept_storage cell).belief_spike.truth
      (Narsese_GetPreconditionWithoutOp n termDepth (Term_ExtractSubterm general 1)) (s.termOf cell) = .ok subs2 ∧
    subs2.success = true ∧
    (subs2.truth.confidence = (s.concept_storage cell).belief_spike.truth.confidence ∨
      ¬ CloserLink n s gc (s.concept_storage cell) subs2.truth.confidence) ∧
    Variable_ApplySubstitute n general subs2 = .ok (specific, true) ∧
    (generic = true → Variable_hasVariable n specific true false false = false) ∧
    (Variable_hasVariable n link.term true true true = true → ¬ Inhibited s opi specific) ∧
    Decision_ConsiderImplication n s now goal
      { link with term := specific, sourceConcept := some cell, sourceConceptId := (s.concept_storage cell).id }
      subs2.truth = .ok d

theorem considerSpecific_tried {s : Sys} (hm : MemInv n s) {goal : Event} {now : Int} {opi : Nat} {imp link : Implication}
    {pm : Bool} {v : Truth} {sp : Implication} {best r : Candidate}
    (h : considerSpecific n s goal now opi imp link (Variable_hasVariable n link.term true true true) pm v sp best = .ok r) :
    Tried (fun d => (Variable_hasVariable n link.term true true true = true → ¬ Inhibited s opi sp.term) ∧
      Decision_ConsiderImplication n s now goal sp v = .ok d) best r := by
  unfold considerSpecific at h
  rw [R.bind_eq_ok] at h
  obtain ⟨d, e, h⟩ := h
  have hu : ∀ d', ((Variable_hasVariable n link.term true true true = true → ¬ Inhibited s opi sp.term) ∧
      Decision_ConsiderImplication n s now goal sp v = .ok d') → d' = d := by
    rintro d' ⟨-, e'⟩
    rw [e] at e'
    cases e'
    rfl
  have same : ∀ c : Bool, (if c = true then { d with missing_specific_implication := sp } else d : Decision).Same d := by
    intro c; cases c <;> exact ⟨rfl, rfl, rfl, rfl⟩
  by_cases hv : Variable_hasVariable n link.term true true true = true
  · rw [if_pos hv, R.bind_eq_ok] at h
    obtain ⟨rel, erel, h⟩ := h
    dsimp only at h
    have hi := inhibited_iff hm erel
    split at h
    · rename_i hin
      cases h
      refine Tried.none ?_
      rintro d' ⟨h1, -⟩
      exact h1 hv (hi.1 hin)
    · rename_i hin
      cases h
      exact Tried.better ⟨fun _ hc => hin (hi.2 hc), e⟩ hu (same _) _ _ _ _ _
  · rw [if_neg hv] at h
    cases h
    exact Tried.better ⟨fun hc => absurd hc hv, e⟩ hu (same _) _ _ _ _ _

theorem considerPrecondition_tried {s : Sys} (hm : MemInv n s) {gc : Nat} {goal : Event} {now : Int} {opi : Nat}
    {link : Implication} {general : Term} {generic : Bool} {k : Nat} {best r : Candidate}
    (h : considerPrecondition n s gc goal now opi { link with term := general } link
      (Variable_hasVariable n link.term true true true) generic best k = .ok r) :
    Tried (FactFor n s gc goal now opi link generic general (s.concepts.items k).address) best r := by
  unfold considerPrecondition at h
  dsimp only at h
  generalize (s.concepts.items k).address = cell at h ⊢
  split at h
  · rename_i h1
    rw [Bool.and_eq_true, decide_eq_true_iff, Bool.not_eq_true'] at h1
    rw [R.bind_eq_ok] at h
    obtain ⟨subs, hu, h⟩ := h
    split at h
    · rename_i hs
      rw [R.bind_eq_ok] at h
      obtain ⟨c, hc, h⟩ := h
      have hcl : c = false ↔ (subs.truth.confidence = (s.concept_storage cell).belief_spike.truth.confidence ∨
          ¬ CloserLink n s gc (s.concept_storage cell) subs.truth.confidence) := by
        by_cases hp : subs.truth.confidence = (s.concept_storage cell).belief_spike.truth.confidence
        · rw [if_pos (decide_eq_true hp)] at hc
          cases hc
          simp [hp]
        · rw [if_neg (by simpa using hp)] at hc
          rw [← hasCloser_iff hc]
          simp [hp]
      split at h
      · rename_i hct
        cases h
        refine Tried.none ?_
        rintro d ⟨subs2, specific, -, -, hu2, -, hcc, -⟩
        change s.unifyWithAnalogy n _ _ (s.termOf cell) = _ at hu
        rw [hu2] at hu
        cases hu
        rw [hcl.2 hcc] at hct
        cases hct
      · rename_i hct
        rw [R.bind_eq_ok] at h
        obtain ⟨t, ht, h⟩ := h
        obtain ⟨t1, t2⟩ := t
        split at h
        · rename_i hg
          rw [Bool.and_eq_true] at hg
          obtain ⟨hg1, hg2⟩ := hg
          cases (show t2 = true from hg1)
          have := considerSpecific_tried hm h
          obtain ⟨p1, p2, p3⟩ := this
          have hgen : generic = true → Variable_hasVariable n t1 true false false = false := by
            intro hgt
            rw [hgt] at hg2
            simpa using hg2
          refine ⟨p1, ?_, ?_⟩
          · rintro d ⟨subs2, specific, -, -, hu2, -, -, hap, -, hin, hd⟩
            change s.unifyWithAnalogy n _ _ (s.termOf cell) = _ at hu
            rw [hu2] at hu
            cases hu
            rw [hap] at ht
            cases ht
            exact p2 d ⟨hin, hd⟩
          · rcases p3 with rfl | ⟨d, ⟨hin, hd⟩, hsame⟩
            · exact .inl rfl
            · exact .inr ⟨d, ⟨subs, t1, h1.1, h1.2, hu, hs, hcl.1 (by simpa using hct), ht, hgen, hin, hd⟩, hsame⟩
        · rename_i hg
          cases h
          refine Tried.none ?_
          rintro d ⟨subs2, specific, -, -, hu2, -, -, hap, hgen, -⟩
          change s.unifyWithAnalogy n _ _ (s.termOf cell) = _ at hu
          rw [hu2] at hu
          cases hu
          rw [hap] at ht
          cases ht
          apply hg
          cases generic with
          | false => rfl
          | true => simp [hgen rfl]
    · rename_i hs
      cases h
      refine Tried.none ?_
      rintro d ⟨subs2, specific, -, -, hu2, hs2, -⟩
      change s.unifyWithAnalogy n _ _ (s.termOf cell) = _ at hu
      rw [hu2] at hu
      cases hu
      exact hs hs2
  · rename_i h1
    cases h
    refine Tried.none ?_
    rintro d ⟨subs2, specific, hv, hdel, -⟩
    apply h1
    rw [Bool.and_eq_true, decide_eq_true_iff, Bool.not_eq_true']
    exact ⟨hv, hdel⟩

theorem considerLink_tried {s : Sys} (hm : MemInv n s) {gc : Nat} {goal : Event} {now : Int} {subs : Substitution} {opi : Nat}
    {link : Implication} {best r : Candidate} (hu : Variable_Unify n (s.termOf gc) goal.term = .ok subs)
    (hs : subs.success = true)
    (h : considerLink n s gc goal now subs (Variable_hasVariable n (s.termOf gc) true true true &&
      Variable_hasVariable n goal.term true true true) opi link best = .ok r) :
    Tried (Considered n s gc goal now opi link) best r := by
  unfold considerLink at h
  rw [R.bind_eq_ok] at h
  obtain ⟨t, ht, h⟩ := h
  obtain ⟨t1, t2⟩ := t
  cases t2 with
  | false =>
    cases h
    refine Tried.none ?_
    rintro d ⟨subs', subs2, general, specific, cell, hu', -, hap, -⟩
    rw [hu] at hu'
    cases hu'
    rw [ht] at hap
    cases hap
  | true =>
    dsimp only at h
    rw [if_pos rfl, R.bind_eq_ok] at h
    obtain ⟨_, _, h⟩ := h
    obtain ⟨p1, p2, p3⟩ := Tried.fold _ (fun b a _ r e => considerPrecondition_tried hm e) best r h
    refine ⟨p1, ?_, ?_⟩
    · rintro d ⟨subs', subs2, general, specific, cell, hu', hs', hap, hcell, h1, h2, h3, h4, h5, h6, h7, h8, h9⟩
      rw [hu] at hu'
      cases hu'
      rw [ht] at hap
      cases hap
      obtain ⟨k, hk, rfl⟩ := mem_live.1 hcell
      refine p2 d ⟨k, List.mem_range.2 hk, subs2, specific, h1, h2, h3, h4, h5, h6, ?_, h8, h9⟩
      intro hgen
      rw [Bool.and_eq_true] at hgen
      exact h7 hgen.1 hgen.2
    · rcases p3 with rfl | ⟨d, ⟨k, hk, subs2, specific, h1, h2, h3, h4, h5, h6, h7, h8, h9⟩, hsame⟩
      · exact .inl rfl
      · refine .inr ⟨d, ⟨subs, subs2, t1, specific, _, hu, hs, ht, mem_live.2 ⟨k, List.mem_range.1 hk, rfl⟩, h1, h2, h3, h4, h5, h6,
          fun a b => h7 (by rw [a, b]; rfl), h8, h9⟩, hsame⟩


/-! ### Links with forgotten preconditions -/

section
omit [Arith]

theorem Pruned.refl (c : Nat) (s : Sys) : Pruned c s s :=
  ⟨(s.concept_storage c).precondition_beliefs, by
    have : upd s.concept_storage c { s.concept_storage c with precondition_beliefs := (s.concept_storage c).precondition_beliefs } =
        s.concept_storage := by
      funext j
      by_cases h : j = c
      · rw [h, upd_same]
      · rw [upd_other _ _ h]
    rw [this], fun _ => ⟨List.Sublist.refl _, fun _ h _ => h⟩⟩

theorem Pruned.term {c : Nat} {s s' : Sys} (h : Pruned c s s') (j : Nat) : s'.termOf j = s.termOf j := by
  obtain ⟨t, rfl, -⟩ := h
  by_cases hj : j = c
  · subst hj; simp [Sys.termOf, upd_same]
  · simp [Sys.termOf, upd_other _ _ hj]

theorem Pruned.valid {c : Nat} {s s' : Sys} (h : Pruned c s s') (l : Implication) : s'.implicationValid l = s.implicationValid l := by
  obtain ⟨t, rfl, -⟩ := h
  unfold Sys.implicationValid
  cases l.sourceConcept with
  | none => rfl
  | some j =>
    by_cases hj : j = c
    · subst hj; simp [upd_same]
    · simp [upd_other _ _ hj]

theorem Pruned.operations {c : Nat} {s s' : Sys} (h : Pruned c s s') : s'.operations = s.operations := by
  obtain ⟨t, rfl, -⟩ := h; rfl

theorem Pruned.registered {c : Nat} {s s' : Sys} (h : Pruned c s s') {o : Nat} : s'.Registered o ↔ s.Registered o := by
  unfold Sys.Registered; rw [h.operations]

theorem Pruned.sub {c : Nat} {s s' : Sys} (h : Pruned c s s') {o : Nat} {l : Implication} (hl : l ∈ s'.linksFor c o) :
    l ∈ s.linksFor c o := by
  obtain ⟨t, rfl, ht⟩ := h
  refine (ht o).1.subset ?_
  simpa [Sys.linksFor, upd_same] using hl

theorem Pruned.keeps {c : Nat} {s s' : Sys} (h : Pruned c s s') {o : Nat} {l : Implication} (hl : l ∈ s.linksFor c o)
    (hv : s.implicationValid l = .ok true) : l ∈ s'.linksFor c o := by
  obtain ⟨t, rfl, ht⟩ := h
  have := (ht o).2 l hl hv
  simpa [Sys.linksFor, upd_same] using this

theorem Pruned.remove {c : Nat} {s s' : Sys} (h : Pruned c s s') {o j : Nat}
    (hj : j < ((s'.concept_storage c).precondition_beliefs o).itemsAmount)
    (hv : s'.implicationValid (((s'.concept_storage c).precondition_beliefs o).array j) = .ok false) :
    Pruned c s { s' with concept_storage := upd s'.concept_storage c { s'.concept_storage c with
      precondition_beliefs := upd (s'.concept_storage c).precondition_beliefs o
        (Table_Remove ((s'.concept_storage c).precondition_beliefs o) j) } } := by
  rw [h.valid] at hv
  obtain ⟨t, rfl, ht⟩ := h
  simp only [upd_same] at hj hv ⊢
  refine ⟨upd t o (Table_Remove (t o) j), ?_, fun o' => ?_⟩
  · congr 1
    funext k
    by_cases hk : k = c
    · rw [hk, upd_same, upd_same]
    · rw [upd_other _ _ hk, upd_other _ _ hk, upd_other _ _ hk]
  · by_cases ho : o' = o
    · subst ho
      rw [upd_same, Table.remove_entries _ _ hj]
      refine ⟨(List.eraseIdx_sublist _ _).trans (ht o').1, fun l hl hlv => ?_⟩
      have hm := (ht o').2 l hl hlv
      obtain ⟨i, hi, e⟩ := List.mem_iff_getElem.1 hm
      rw [List.mem_eraseIdx_iff_getElem?]
      refine ⟨i, ?_, by rw [List.getElem?_eq_getElem hi, e]⟩
      rintro rfl
      rw [Table.entries_getElem] at e
      rw [e, hlv] at hv
      cases hv
    · rw [upd_other _ _ ho]
      exact ht o'

end

/-- Every candidate of the link is at most as desired as the best one. -/
def Dominated (n : Narsese) (s : Sys) (gc : Nat) (goal : Event) (now : Int) (opi : Nat) (link : Implication) (best : Candidate) :
    Prop :=
  ∃ s1, Pruned gc s s1 ∧ ∀ d, Considered n s1 gc goal now opi link d → d.desire ≤ best.decision.desire

/-- Where the best candidate so far comes from. -/
def Origin (n : Narsese) (s : Sys) (gc : Nat) (goal : Event) (now : Int) (best : Candidate) : Prop :=
  best.decision = Decision.zero ∨ IsCandidate n s gc goal now best.decision

theorem Dominated.mono {s : Sys} {gc : Nat} {goal : Event} {now : Int} {opi : Nat} {link : Implication} {b b' : Candidate}
    (h : Dominated n s gc goal now opi link b) (hb : b.decision.desire ≤ b'.decision.desire) :
    Dominated n s gc goal now opi link b' := by
  obtain ⟨s1, h1, h2⟩ := h
  exact ⟨s1, h1, fun d hd => (h2 d hd).trans hb⟩

/-- Loops, with what holds when they end. -/
theorem WP.loop_exit {σ : Type} {body : σ → M (Bool × σ)} {J Q : σ → Sys → Prop}
    (h : ∀ st s, J st s → WP (body st) (fun r s' => if r.1 = true then J r.2 s' else Q r.2 s') s) :
    ∀ fuel st s, J st s → WP (loopM body fuel st) Q s := by
  intro fuel
  induction fuel with
  | zero => intro st s _; exact WP.throw
  | succ k ih =>
    intro st s hst
    unfold loopM
    refine WP.bind ((h st s hst).mono ?_)
    rintro ⟨b, st'⟩ s' hr
    cases b with
    | true => exact ih _ _ hr
    | false => exact WP.pure hr

variable {s : Sys} {gc : Nat} {goal : Event} {now : Int} {subs : Substitution}

theorem considerLinks_wp (hu : Variable_Unify n (s.termOf gc) goal.term = .ok subs) (hs : subs.success = true) {opi : Nat}
    (ho : s.Registered opi) {best : Candidate} (hb : Origin n s gc goal now best) {s0 : Sys} (h0 : Good n s0) (hp0 : Pruned gc s s0) :
    WP (considerLinks n gc goal now subs (Variable_hasVariable n (s.termOf gc) true true true &&
      Variable_hasVariable n goal.term true true true) opi best) (fun r s' => Good n s' ∧ Pruned gc s s' ∧
        best.decision.desire ≤ r.decision.desire ∧ Origin n s gc goal now r ∧
        ∀ link ∈ s'.linksFor gc opi, Dominated n s gc goal now opi link r) s0 := by
  unfold considerLinks
  refine WP.bind ((WP.loop_exit (J := fun (st : Nat × Candidate) s' => Good n s' ∧ Pruned gc s s' ∧
        best.decision.desire ≤ st.2.decision.desire ∧ Origin n s gc goal now st.2 ∧
        ∀ link ∈ (s'.linksFor gc opi).take st.1, Dominated n s gc goal now opi link st.2)
      (Q := fun (st : Nat × Candidate) s' => Good n s' ∧ Pruned gc s s' ∧
        best.decision.desire ≤ st.2.decision.desire ∧ Origin n s gc goal now st.2 ∧
        ∀ link ∈ s'.linksFor gc opi, Dominated n s gc goal now opi link st.2) ?_ _ (0, best) s0
      ⟨h0, hp0, le_refl _, hb, by simp⟩).mono ?_)
  · rintro ⟨j, b⟩ s1 ⟨hg, hp, hle, hor, hdom⟩
    refine WP.get ?_
    dsimp only
    refine WP.ite (fun hj => ?_) fun hj => ?_
    · refine WP.bind (WP.lift fun v hv => ?_)
      refine WP.ite (fun hvt => ?_) fun hvf => ?_
      · refine WP.bind (WP.lift fun r hr => WP.pure ?_)
        rw [if_pos rfl]
        cases (show v = true from hvt)
        have hterm := hp.term gc
        rw [← hterm] at hr hu
        obtain ⟨p1, p2, p3⟩ := considerLink_tried hg.mem hu hs hr
        have hlink : ((s1.concept_storage gc).precondition_beliefs opi).array j ∈ s1.linksFor gc opi :=
          List.mem_map.2 ⟨j, List.mem_range.2 hj, rfl⟩
        refine ⟨hg, hp, hle.trans p1, ?_, ?_⟩
        · rcases p3 with rfl | ⟨d, hd, hsame⟩
          · exact hor
          · refine .inr ⟨opi, ho, _, hp.sub hlink, ?_, s1, hp, d, hd, hsame⟩
            rw [← hp.valid]; exact hv
        · intro link hl
          have hj' : j < (s1.linksFor gc opi).length := by
            unfold Sys.linksFor; rw [Table.entries_length]; exact hj
          have hx := List.mem_iff_getElem.1 hl
          obtain ⟨i, hi, e⟩ := hx
          rw [List.getElem_take] at e
          rw [List.length_take] at hi
          by_cases hij : i = j
          · subst hij
            rw [← e]
            refine ⟨s1, hp, ?_⟩
            have : (s1.linksFor gc opi)[i] = ((s1.concept_storage gc).precondition_beliefs opi).array i :=
              Table.entries_getElem _ _ hj'
            rw [this]
            exact p2
          · refine (hdom link ?_).mono p1
            refine List.mem_iff_getElem.2 ⟨i, ?_, ?_⟩
            · rw [List.length_take]; dsimp only at hi ⊢; omega
            · rw [List.getElem_take]; exact e
      · have hvf' : v = false := by simpa using hvf
        subst hvf'
        refine WP.bind (WP.modify (WP.pure ?_))
        rw [if_pos rfl]
        have hp' := hp.remove hj hv
        refine ⟨(good_closed n).removeLink hg hj hv, hp', hle, hor, ?_⟩
        intro link hl
        refine hdom link ?_
        dsimp only at hl ⊢
        unfold Sys.linksFor at hl ⊢
        simp only [upd_same] at hl
        rw [Table.remove_entries _ _ hj] at hl
        rw [List.eraseIdx_eq_take_drop_succ, List.take_append_of_le_length, List.take_take] at hl
        · simpa using hl
        · rw [List.length_take, Table.entries_length]; omega
    · refine WP.pure ?_
      rw [if_neg (by simp)]
      refine ⟨hg, hp, hle, hor, ?_⟩
      dsimp only at hdom
      rw [List.take_of_length_le] at hdom
      · exact hdom
      · unfold Sys.linksFor; rw [Table.entries_length]; omega
  · rintro ⟨j, r⟩ s' h
    exact WP.pure h

theorem considerTables_wp (hu : Variable_Unify n (s.termOf gc) goal.term = .ok subs) (hs : subs.success = true) :
    ∀ (m a : Nat) {best : Candidate}, a + m = OPERATIONS_MAX → (∀ j, j < a → (s.operations j).term.get 0 ≠ 0) →
    Origin n s gc goal now best → ∀ {s0 : Sys}, Good n s0 → Pruned gc s s0 →
    (∀ opi, 1 ≤ opi → opi ≤ a → ∀ link ∈ s.linksFor gc opi, s.implicationValid link = .ok true →
      Dominated n s gc goal now opi link best) →
    WP (considerOperationTables n gc goal now subs (Variable_hasVariable n (s.termOf gc) true true true &&
      Variable_hasVariable n goal.term true true true) ((List.range' a m).map (· + 1)) best)
      (fun r s' => Good n s' ∧ Pruned gc s s' ∧ Origin n s gc goal now r ∧
        ∀ opi, s.Registered opi → ∀ link ∈ s.linksFor gc opi, s.implicationValid link = .ok true →
          Dominated n s gc goal now opi link r) s0 := by
  intro m
  induction m with
  | zero =>
    intro a best ha _ hor s0 hg hp hd
    refine WP.pure ⟨hg, hp, hor, fun opi hopi => ?_⟩
    exact hd opi hopi.1 (by have := hopi.2.1; omega)
  | succ m ih =>
    intro a best ha hreg hor s0 hg hp hd
    rw [List.range'_succ, List.map_cons]
    unfold considerOperationTables
    refine WP.get ?_
    refine WP.ite (fun h1 => ?_) fun h1 => ?_
    · rw [hp.operations, Nat.add_sub_cancel] at h1
      have hr : ∀ j, j < a + 1 → (s.operations j).term.get 0 ≠ 0 := by
        intro j hj
        by_cases e : j = a
        · rw [e]; exact h1
        · exact hreg j (by omega)
      refine WP.bind ((considerLinks_wp hu hs (opi := a + 1) ⟨by omega, by omega, hr⟩ hor hg hp).mono ?_)
      rintro r s1 ⟨hg1, hp1, hle, hor1, hd1⟩
      refine ih (a + 1) (by omega) hr hor1 hg1 hp1 ?_
      intro opi h2 h3 link hl hv
      by_cases e : opi = a + 1
      · subst e
        exact hd1 link (hp1.keeps hl hv)
      · exact (hd opi h2 (by omega) link hl hv).mono hle
    · refine WP.pure ⟨hg, hp, hor, fun opi hopi => ?_⟩
      refine hd opi hopi.1 ?_
      by_contra hlt
      rw [hp.operations, Nat.add_sub_cancel] at h1
      exact h1 (hopi.2.2 a (by omega))

/-- The whole search. -/
theorem bestCandidate_wp (hg : Good n s) :
    WP (Decision_BestCandidate n gc goal now) (fun d s' => ∃ s1, Pruned gc s s1 ∧
      if d.execute = true then
        s.DECISION_THRESHOLD ≤ d.desire ∧ IsCandidate n s gc goal now d ∧
        NoCandidate n s gc goal now (fun d' => d.desire < d'.desire) ∧
        ∃ imp, s' = { s1 with output := s1.output ++ [.decision d.desire imp] }
      else d = Decision.zero ∧ s' = s1 ∧ NoCandidate n s gc goal now (fun d' => s.DECISION_THRESHOLD ≤ d'.desire)) s := by
  unfold Decision_BestCandidate
  refine WP.get ?_
  dsimp only
  refine WP.bind (WP.lift fun subs hu => ?_)
  refine WP.bind ?_
  have key : WP (if subs.success = true then
      ONA.considerOperationTables n gc goal now subs
        (Variable_hasVariable n (s.concept_storage gc).term true true true && Variable_hasVariable n goal.term true true true)
        ((List.range OPERATIONS_MAX).map (· + 1)) ⟨Decision.zero, Implication.zero, COMPOUND_TERM_SIZE_MAX + 1⟩
      else pure ⟨Decision.zero, Implication.zero, COMPOUND_TERM_SIZE_MAX + 1⟩)
      (fun r s' => Good n s' ∧ Pruned gc s s' ∧ Origin n s gc goal now r ∧
        ∀ opi, s.Registered opi → ∀ link ∈ s.linksFor gc opi, s.implicationValid link = .ok true →
          Dominated n s gc goal now opi link r) s := by
    refine WP.ite (fun hs => ?_) fun hs => ?_
    · rw [List.range_eq_range']
      exact considerTables_wp hu hs OPERATIONS_MAX 0 (by omega) (by omega) (.inl rfl) hg (Pruned.refl _ _)
        (fun opi h1 h2 => absurd h2 (by omega))
    · refine WP.pure ⟨hg, Pruned.refl _ _, .inl rfl, fun opi _ link _ _ => ⟨s, Pruned.refl _ _, ?_⟩⟩
      rintro d ⟨subs', _, _, _, _, hu', hs', -⟩
      change Variable_Unify n (s.termOf gc) _ = _ at hu
      rw [hu] at hu'
      cases hu'
      exact absurd hs' hs
  refine key.mono ?_
  rintro best s1 ⟨hg1, hp1, hor, hdom⟩
  have hthr : s1.DECISION_THRESHOLD = s.DECISION_THRESHOLD := by obtain ⟨t, rfl, -⟩ := hp1; rfl
  refine WP.get ?_
  refine WP.ite (fun hlt => WP.pure ?_) fun hge => ?_
  · refine ⟨s1, hp1, ?_⟩
    rw [if_neg (by simp [Decision.zero])]
    refine ⟨rfl, rfl, fun opi ho link hl hv => ?_⟩
    obtain ⟨s2, h1, h2⟩ := hdom opi ho link hl hv
    refine ⟨s2, h1, fun d hd hbad => ?_⟩
    rw [hthr] at hlt
    exact absurd (h2 d hd) (not_le.2 (lt_of_lt_of_le hlt hbad))
  · split
    · exact WP.throw
    · rename_i hreason
      unfold emit
      refine WP.bind (WP.modify (WP.pure ⟨s1, hp1, ?_⟩))
      rw [if_pos rfl]
      refine ⟨?_, ?_, ?_, _, rfl⟩
      · rw [← hthr]; exact not_lt.1 hge
      · rcases hor with h | h
        · rw [h] at hreason; cases hreason
        · exact h
      · intro opi ho link hl hv
        obtain ⟨s2, h1, h2⟩ := hdom opi ho link hl hv
        exact ⟨s2, h1, fun d hd => not_lt.2 (h2 d hd)⟩

end ONA
