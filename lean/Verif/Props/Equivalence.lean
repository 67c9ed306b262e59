import Verif.Spec.Equivalence
import Verif.Proofs.DecisionBest
import Verif.Props.InferenceRun
/-
C82. Functional equivalence.
-/
namespace ONA
variable {n : Narsese}

/-! ### The difference of two sequences -/

theorem Differ.unique {s t a b a' b' : Term} (h : Differ n s t a b) (h' : Differ n s t a' b') : a = a' ∧ b = b' := by
  induction h with
  | first hs ht e _ ih =>
    cases h' with
    | first _ _ _ h1 => exact ih h1
    | last _ _ e' _ _ => exact absurd e e'
    | rest h1 => exact absurd e (h1 hs ht).1
  | last hs ht e e2 _ ih =>
    cases h' with
    | first _ _ e' _ => exact absurd e' e
    | last _ _ _ _ h1 => exact ih h1
    | rest h1 => exact absurd e2 (h1 hs ht).2
  | rest h0 =>
    cases h' with
    | first hs ht e' _ => exact absurd e' (h0 hs ht).1
    | last hs ht _ e' _ => exact absurd e' (h0 hs ht).2
    | rest _ => exact ⟨rfl, rfl⟩

theorem simplify_differ : ∀ (fuel : Nat) (s t : Term), s.tree.height ≤ fuel →
    Differ n s t (simplifySequences n fuel s t).1 (simplifySequences n fuel s t).2
  | 0, s, t, hh => by
    have h0 : s.get 0 = 0 := by
      by_contra h0
      rw [tree_eq h0] at hh
      simp [Tree.height] at hh
    exact .rest fun h => absurd h0 h.1
  | fuel + 1, s, t, hh => by
    unfold simplifySequences
    by_cases h : Narsese_copulaEquals n (s.get 0) SEQUENCE = true ∧ Narsese_copulaEquals n (t.get 0) SEQUENCE = true
    · rw [if_pos (by rw [h.1, h.2]; rfl)]
      have hs := is_iff.1 h.1
      have ht := is_iff.1 h.2
      have hx := hh
      rw [tree_eq hs.1] at hx
      simp only [Tree.height] at hx
      by_cases e1 : Term_ExtractSubterm s 1 = Term_ExtractSubterm t 1
      · rw [if_pos e1]
        exact .first hs ht e1 (simplify_differ fuel _ _ (by rw [extract_right hs.1]; omega))
      · rw [if_neg e1]
        by_cases e2 : Term_ExtractSubterm s 2 = Term_ExtractSubterm t 2
        · rw [if_pos e2]
          exact .last hs ht e1 e2 (simplify_differ fuel _ _ (by rw [extract_left hs.1]; omega))
        · rw [if_neg e2]
          exact .rest fun _ _ => ⟨e1, e2⟩
    · rw [if_neg (by simpa using h)]
      exact .rest fun hs ht => absurd ⟨is_iff.2 hs, is_iff.2 ht⟩ h

section
variable [Arith]

/-! ### Temporal links -/

theorem expectation_none : Truth_Expectation ⟨0, 0⟩ ≤ 1 / 2 := by
  unfold Truth_Expectation fadd fmul fsub
  simp only [zero_mul]
  rw [rnd_zero, zero_add]
  exact rnd_le isRepr_half (le_refl _)

theorem temporalLoop (t : Table) (ht : TableSpec.Ranked t.entries) (a b : Term) : ∀ (k : Nat) (v : Truth), k ≤ t.itemsAmount →
    temporalLinkLoop t a b k = .ok v →
    (1 / 2 < Truth_Expectation v ↔ ∃ i, t.itemsAmount - k ≤ i ∧ i < t.itemsAmount ∧
      Term_ExtractSubterm (t.array i).term 1 = a ∧ Term_ExtractSubterm (t.array i).term 2 = b ∧
      1 / 2 < Truth_Expectation (t.array i).truth)
  | 0, v, _, e => by
    cases e
    constructor
    · intro h; exact absurd h (not_lt.2 expectation_none)
    · rintro ⟨i, h1, h2, -⟩; omega
  | k + 1, v, hk, e => by
    unfold temporalLinkLoop at e
    obtain ⟨_, hc, e⟩ := R.bind_eq_ok.1 e
    have hb := of_decide_eq_true (cassert_eq_ok.1 hc)
    by_cases ha : Term_ExtractSubterm (t.array (t.itemsAmount - (k + 1))).term 1 = a
    · rw [if_pos ha] at e
      cases e
      constructor
      · intro h; exact ⟨_, le_refl _, by omega, ha, hb, h⟩
      · rintro ⟨i, h1, h2, _, _, h⟩
        rcases Nat.eq_or_lt_of_le h1 with rfl | h1
        · exact h
        · have := List.pairwise_iff_getElem.1 ht (t.itemsAmount - (k + 1)) i (by simp [Table.entries]; omega)
            (by simpa [Table.entries] using h2) h1
          simp only [Table.entries, List.getElem_map, List.getElem_range] at this
          exact lt_of_lt_of_le h this
    · rw [if_neg ha] at e
      rw [temporalLoop t ht a b k v (by omega) e]
      constructor
      · rintro ⟨i, h1, h⟩; exact ⟨i, by omega, h⟩
      · rintro ⟨i, h1, h2, h3, h⟩
        refine ⟨i, ?_, h2, h3, h⟩
        rcases Nat.eq_or_lt_of_le h1 with rfl | h1
        · exact absurd h3 ha
        · omega

theorem temporal_wp {s : Sys} (hg : Good n s) (a b : Term) : WP (Memory_getTemporalLinkTruth a b)
    (fun v s' => s' = s ∧ (1 / 2 < Truth_Expectation v ↔ s.Precedes a b)) s := by
  unfold Memory_getTemporalLinkTruth
  refine WP.bind ?_
  intro r s1 e1
  obtain ⟨r', e2, hr⟩ := hg.mem.find_eq b
  rw [e2] at e1
  cases e1
  cases r with
  | none =>
    refine WP.pure ⟨rfl, ?_⟩
    constructor
    · intro h; exact absurd h (not_lt.2 expectation_none)
    · rintro ⟨c, hc, hb, -⟩; exact absurd hb (hr c hc)
  | some c =>
    refine WP.get (WP.lift fun v hv => ⟨rfl, ?_⟩)
    rw [temporalLoop _ ((hg.concepts c).precondition_beliefs 0).inv.ranked a b _ v (le_refl _) hv]
    constructor
    · rintro ⟨i, _, h2, h3, h4, h5⟩
      exact ⟨c, hr.1, hr.2, _, mem_entries.2 ⟨i, h2, rfl⟩, h3, h4, h5⟩
    · rintro ⟨c', hc', hb, link, hl, h3, h4, h5⟩
      have : c' = c := hg.mem.term_inj hc' hr.1 (hb.trans hr.2.symm)
      subst this
      obtain ⟨i, h2, rfl⟩ := mem_entries.1 hl
      exact ⟨i, by omega, h2, h3, h4, h5⟩

theorem noTemporalLink_wp {s : Sys} (hg : Good n s) (a b : Term) : WP (noTemporalLink a b)
    (fun r s' => s' = s ∧ (r = true ↔ ¬ s.Precedes a b ∧ ¬ s.Precedes b a)) s := by
  unfold noTemporalLink
  refine WP.bind ((temporal_wp hg a b).mono ?_)
  rintro v _ ⟨rfl, h⟩
  refine WP.ite (fun h1 => ?_) fun h1 => WP.pure ⟨rfl, ?_⟩
  · refine WP.bind ((temporal_wp hg b a).mono ?_)
    rintro w _ ⟨rfl, h'⟩
    refine WP.pure ⟨rfl, ?_⟩
    rw [decide_eq_true_eq, ← h, ← h', not_lt, not_lt]
    exact ⟨fun x => ⟨h1, x⟩, And.right⟩
  · rw [← h, not_lt]
    exact ⟨fun x => (by cases x), fun x => absurd x.1 h1⟩

/-! ### What is added -/

omit [Arith] in
theorem zero_novar : ¬ Term.zero.HasVariables n := by
  rintro ⟨i, _, h⟩
  rw [Term.get_zero] at h
  unfold Narsese.IsVar Variable_isIndependentVariable Variable_isDependentVariable at h
  simp at h

theorem addGeneralized_wp (e : Event) (now : Int) (side : Nat) (known : Option Term) (s : Sys) :
    WP (addGeneralized n e now side (known.getD Term.zero))
      (fun r s' => ∃ g, r = g.getD Term.zero ∧ Generalised n now e side known s g s') s := by
  unfold addGeneralized
  refine WP.bind (WP.lift ?_)
  rintro ⟨ok, t⟩ hr
  refine WP.ite (fun h => ?_) fun h => WP.pure ⟨none, rfl, ?_⟩
  · simp only [Bool.and_eq_true, decide_eq_true_eq, hasVariable_iff] at h
    obtain ⟨⟨rfl, hv⟩, hk⟩ := h
    refine WP.bind ?_
    intro _ s' e1
    refine WP.pure ⟨some t, rfl, .some t s' hr hv ?_ e1⟩
    rintro rfl
    exact hk rfl
  · refine .none ok t hr ?_
    simp only [Bool.and_eq_true, decide_eq_true_eq, hasVariable_iff] at h
    cases ok with
    | false => exact .inl rfl
    | true =>
      right
      by_cases hv : t.HasVariables n
      · right
        have : known.getD Term.zero = t := by
          by_contra hk
          exact h ⟨⟨rfl, hv⟩, hk⟩
        cases known with
        | none =>
          rw [← this] at hv
          exact absurd hv zero_novar
        | some x => exact congrArg _ this
      · exact .inl hv

theorem addFunctional_wp {s : Sys} (hg : Good n s) (a b : Term) (v : R Truth) (stamp : Stamp) (now : Int) (k2 k1 : Option Term) :
    WP (addFunctionalImplication n a b v stamp now (k2.getD Term.zero) (k1.getD Term.zero))
      (fun r s' => ∃ g2 g1, r = (g2.getD Term.zero, g1.getD Term.zero) ∧
        Concludes n now a b v stamp k2 k1 s g2 g1 s') s := by
  unfold addFunctionalImplication
  dsimp only
  cases hb : buildCompound (copulaAtom IMPLICATION) a b with
  | mk ok t =>
  refine WP.ite (fun h => ?_) fun h => ?_
  · cases ok with
    | true => cases h
    | false => exact WP.pure ⟨none, none, rfl, .large t hb⟩
  · have hok : ok = true := by cases ok with | true => rfl | false => exact absurd rfl h
    subst hok
    refine WP.bind ((noTemporalLink_wp hg a b).mono ?_)
    rintro r _ ⟨rfl, hr⟩
    refine WP.ite (fun h => ?_) fun h => ?_
    · refine WP.pure ⟨none, none, rfl, .temporal t hb ?_⟩
      by_contra hx
      rw [not_or] at hx
      rw [hr.2 hx] at h
      cases h
    · have hr' : r = true := by cases r with | true => rfl | false => exact absurd rfl h
      have hp := hr.1 hr'
      refine WP.bind (WP.lift fun truth hv => ?_)
      refine WP.bind ?_
      intro _ s1 e1
      refine WP.bind ((addGeneralized_wp (conclusionNow t truth stamp now) now 2 k2 s1).mono ?_)
      rintro _ s2 ⟨g2, rfl, h2⟩
      refine WP.bind ((addGeneralized_wp (conclusionNow t truth stamp now) now 1 k1 s2).mono ?_)
      rintro _ s3 ⟨g1, rfl, h1⟩
      exact WP.pure ⟨g2, g1, rfl, .new t truth s1 s2 s3 g2 g1 hb hp.1 hp.2 hv e1 h2 h1⟩

theorem compare_wp {s : Sys} (hg : Good n s) {l l' : Implication} (hl : l.Good n) (hl' : l'.Good n) (now : Int) :
    WP (compareImplications n l l' now) (fun _ s' => ComparesLinks n now l l' s s') s := by
  unfold compareImplications
  dsimp only
  have hd := simplify_differ (n := n) termDepth (l.condition n) (l'.condition n) (height_le _)
  refine WP.ite (fun h => WP.pure (.other ?_)) fun hvar => ?_
  · rintro ⟨a, b, ha⟩
    exact ha.ground (hasVariable_iff _ |>.1 h)
  refine WP.ite (fun h => WP.pure (.other ?_)) fun hne => ?_
  · rintro ⟨a, b, ha⟩
    exact ha.conditions h
  refine WP.ite (fun h => ?_) fun h => WP.pure (.other ?_)
  · simp only [Bool.and_eq_true, decide_eq_true_eq, Bool.not_eq_true'] at h
    have hsim := Narsese.Knows.simplify (n := n) termDepth ((hl.term.extract 1).withoutOp (n := n) termDepth)
      ((hl'.term.extract 1).withoutOp (n := n) termDepth)
    refine WP.bind (((addFunctional_wp hg _ _ _ _ now none none).and
      (WP.keeps ((good_closed n).addFunctionalImplication hsim.1 hsim.2 (fun t ht => Truth_Induction_valid hl.truth hl'.truth ht)
        (Stamp_make_wf _ _) _ _ _) hg)).mono ?_)
    rintro _ s1 ⟨⟨g2, g1, rfl, h1⟩, hg1, -⟩
    refine WP.bind ((addFunctional_wp hg1 _ _ _ _ now g2 g1).mono ?_)
    rintro _ s2 ⟨g2', g1', -, h2⟩
    exact WP.pure (.alternative _ _ g2 g1 g2' g1' s1 s2
      ⟨fun hv => hvar ((hasVariable_iff _).2 hv), h.1.1.1, h.1.1.2, hne, hd, h.1.2, disjoint_iff.1 h.2⟩ h1 h2)
  · rintro ⟨a, b, ha⟩
    obtain ⟨e1, e2⟩ := ha.differ.unique hd
    refine h ?_
    simp only [Bool.and_eq_true, decide_eq_true_eq, Bool.not_eq_true']
    refine ⟨⟨⟨ha.consequence, ha.operation⟩, ?_⟩, disjoint_iff.2 ha.evidence⟩
    have := ha.length
    rw [e1, e2] at this
    exact this

omit [Arith] in
theorem entries_get {t : Table} {j : Nat} (h : j < t.itemsAmount) : t.entries[j]? = some (t.array j) := by
  simp [Table.entries, h]

omit [Arith] in
theorem entries_length {t : Table} : t.entries.length = t.itemsAmount := by simp [Table.entries]

/-- **C82.** When an operation is chosen because of a link without variables, this link is compared with all links in the table of
its operation at the concept of its consequence, one after the other, each in the state which results from the comparisons
before; nothing else happens. -/
theorem C82_compared {s s' : Sys} (hg : Good n s) {d : Decision} (hd : d.specific_implication.Good n) {now : Int}
    (e : functionalEquivalence n now d s = .ok ((), s')) :
    ComparesTable n now d.specific_implication d.tableIndex s s' := by
  suffices h : WP (functionalEquivalence n now d) (fun _ s' => ComparesTable n now d.specific_implication d.tableIndex s s') s from
    h _ _ e
  unfold functionalEquivalence
  dsimp only
  refine WP.ite (fun h => ?_) fun h => ?_
  · simp only [Bool.and_eq_true, decide_eq_true_eq, Bool.not_eq_true'] at h
    have hv : ¬ d.specific_implication.term.HasVariables n := fun hv => by
      rw [Term.HasVariables, ← hasVariable_iff, h.2] at hv
      cases hv
    refine WP.bind ?_
    intro r s1 e1
    obtain ⟨r', e2, hr⟩ := hg.mem.find_eq (Term_ExtractSubterm d.specific_implication.term 2)
    rw [e2] at e1
    cases e1
    cases r with
    | none => exact WP.pure (.none (.inr (.inr hr)))
    | some c =>
      refine WP.bind ((WP.loop_exit
        (J := fun j s1 => Good n s1 ∧ ComparedUpTo n now d.specific_implication c d.tableIndex s j s1)
        (Q := fun j s1 => ComparedUpTo n now d.specific_implication c d.tableIndex s j s1 ∧
          (s1.linksFor c d.tableIndex).length ≤ j) ?_ _ 0 s
        ⟨hg, .start⟩).mono ?_)
      · rintro j s1 ⟨hg1, h1⟩
        refine WP.get ?_
        refine WP.ite (fun hj => ?_) fun hj => ?_
        · have hl' := ((hg1.concepts c).precondition_beliefs d.tableIndex).array hj
          refine WP.bind (((compare_wp hg1 hd hl' now).and
            (WP.keeps ((good_closed n).compareImplications hd hl' now) hg1)).mono ?_)
          rintro _ s2 ⟨h2, hg2, -⟩
          exact WP.pure ⟨hg2, .next _ h1 (entries_get hj) h2⟩
        · refine WP.pure ⟨h1, ?_⟩
          unfold Sys.linksFor
          rw [entries_length]
          exact Nat.le_of_not_lt hj
      · rintro j s1 ⟨h1, h2⟩
        exact WP.pure (.all c j s1 h.1 hv hr.1 hr.2 h1 h2)
  · refine WP.pure (.none ?_)
    simp only [Bool.and_eq_true, decide_eq_true_eq, Bool.not_eq_true', not_and, Bool.not_eq_false] at h
    by_cases h0 : d.specific_implication.term.get 0 = 0
    · exact .inl h0
    · exact .inr (.inl ((hasVariable_iff _).1 (h h0)))

/-- **C82 (execution).** Executing a decision begins with this comparison. -/
theorem C82_executed {s s' : Sys} (hg : Good n s) {d : Decision} (hd : d.specific_implication.Good n) {now : Int}
    {add : Term → M Unit} (e : Decision_Execute n add now d s = .ok ((), s')) :
    ∃ s1, ComparesTable n now d.specific_implication d.tableIndex s s1 ∧ (d.operationID = 0 → s' = s1) ∧
      (d.operationID ≠ 0 → executeOperation n add now d s1 = .ok ((), s')) := by
  unfold Decision_Execute at e
  rw [M.bind_ok] at e
  obtain ⟨⟨⟩, s1, e1, e2⟩ := e
  refine ⟨s1, C82_compared hg hd e1, fun h => ?_, fun h => ?_⟩
  · rw [if_neg (by simpa using h)] at e2
    exact (M.pure_ok.1 e2).2.symm
  · rw [if_pos h] at e2
    exact e2

end
end ONA
