import Verif.Spec.Vocabulary
import Verif.Proofs.Term
import Mathlib.Tactic.SplitIfs
/-
Every operation on terms which the reasoner uses keeps to the registered atoms.
-/
namespace ONA
namespace Narsese
variable {n : Narsese}

theorem knows_zero : n.Knows Term.zero := by
  intro i
  rw [Term.get_zero]
  exact Nat.zero_le _

theorem Knows.put {t : Term} (h : n.Knows t) (i : Nat) {a : Atom} (ha : a.toNat ≤ n.term_index) : n.Knows (t.put i a) := by
  intro k
  rw [Term.get_put]
  split
  · exact ha
  · exact h k

theorem Knows.override (fuel : Nat) : ∀ {t : Term} (i : Nat) {u : Term} (j : Nat), n.Knows t → n.Knows u →
    n.Knows (Term_RelativeOverride fuel t i u j).2 := by
  induction fuel with
  | zero => intro t i u j ht _; exact ht
  | succ fuel ih =>
    intro t i u j ht hu
    unfold Term_RelativeOverride
    by_cases h1 : i ≥ COMPOUND_TERM_SIZE_MAX
    · rw [if_pos h1]; exact ht
    rw [if_neg h1]
    by_cases h2 : j < COMPOUND_TERM_SIZE_MAX
    · rw [if_pos h2]
      have hp : n.Knows (t.put i (u.get j)) := ht.put i (hu j)
      have hl : n.Knows (if (j + 1) * 2 - 1 < COMPOUND_TERM_SIZE_MAX ∧ u.get ((j + 1) * 2 - 1) ≠ 0 then
          Term_RelativeOverride fuel (t.put i (u.get j)) ((i + 1) * 2 - 1) u ((j + 1) * 2 - 1)
        else (true, t.put i (u.get j))).2 := by
        split
        · exact ih _ _ hp hu
        · exact hp
      dsimp only
      revert hl
      generalize (if (j + 1) * 2 - 1 < COMPOUND_TERM_SIZE_MAX ∧ u.get ((j + 1) * 2 - 1) ≠ 0 then
          Term_RelativeOverride fuel (t.put i (u.get j)) ((i + 1) * 2 - 1) u ((j + 1) * 2 - 1)
        else (true, t.put i (u.get j))) = p
      intro hl
      by_cases h3 : (!p.1) = true
      · rw [if_pos h3]; exact hl
      rw [if_neg h3]
      by_cases h4 : (j + 1) * 2 + 1 - 1 < COMPOUND_TERM_SIZE_MAX ∧ u.get ((j + 1) * 2 + 1 - 1) ≠ 0
      · rw [if_pos h4]; exact ih _ _ hl hu
      · rw [if_neg h4]; exact hl
    · rw [if_neg h2]; exact ht

theorem Knows.overrideSubterm {t u : Term} (ht : n.Knows t) (i : Nat) (hu : n.Knows u) :
    n.Knows (Term_OverrideSubterm t i u).2 := Knows.override 7 i 0 ht hu

theorem Knows.extract {t : Term} (ht : n.Knows t) (j : Nat) : n.Knows (Term_ExtractSubterm t j) :=
  Knows.override 7 0 j knows_zero ht

theorem Knows.ite {t u : Term} {c : Prop} [Decidable c] (ht : n.Knows t) (hu : n.Knows u) :
    n.Knows (if c then t else u) := by
  split
  · exact ht
  · exact hu

theorem toAtom_toNat_le (k : Nat) : (toAtom k).toNat ≤ k := by
  unfold toAtom
  rw [BitVec.toNat_ofNat]
  exact Nat.mod_le _ _

section
variable (hn : n.Base)
include hn

theorem Base.name (s : CStr) : (nameAtom s).toNat ≤ n.term_index := by
  refine Nat.le_trans (toAtom_toNat_le _) (Nat.le_trans ?_ hn.initial)
  exact Nat.succ_le_succ List.idxOf_le_length

theorem Base.copula (c : Char) : (copulaAtom c).toNat ≤ n.term_index := hn.name [c]

theorem Base.compound (c : Char) {a b : Term} (ha : n.Knows a) (hb : n.Knows b) :
    n.Knows (buildCompound (copulaAtom c) a b).2 := by
  unfold buildCompound
  have h0 : n.Knows (Term.zero.put 0 (copulaAtom c)) := knows_zero.put 0 (hn.copula c)
  have h1 := h0.overrideSubterm 1 ha
  dsimp only
  split
  · exact h1.overrideSubterm 2 hb
  · exact h1

theorem Base.sequence {a b : Term} (ha : n.Knows a) (hb : n.Knows b) : n.Knows (Narsese_Sequence a b).2 := by
  unfold Narsese_Sequence
  exact Knows.ite (hn.compound _ ha hb) knows_zero

theorem Base.opSequence (fuel : Nat) : ∀ {start seq : Term}, n.Knows start → n.Knows seq →
    n.Knows (Narsese_OperationSequenceAppendLeftNested n fuel start seq).2 := by
  induction fuel with
  | zero => intro start seq h _; exact h
  | succ fuel ih =>
    intro start seq h1 h2
    unfold Narsese_OperationSequenceAppendLeftNested
    have hl := ih h1 (h2.extract 1)
    split
    · dsimp only
      split
      · exact hl
      · exact ih hl (h2.extract 2)
    · split
      · split
        · exact h2
        · exact hn.sequence h1 h2
      · exact h1

theorem Base.operationTerm (fuel : Nat) : ∀ {t : Term}, n.Knows t → n.Knows (Narsese_getOperationTerm n fuel t) := by
  induction fuel with
  | zero => intro t _; exact knows_zero
  | succ fuel ih =>
    intro t h
    unfold Narsese_getOperationTerm
    refine Knows.ite (ih (h.extract 1)) (Knows.ite ?_ (Knows.ite h knows_zero))
    dsimp only
    exact Knows.ite knows_zero (Knows.ite knows_zero (hn.opSequence _ knows_zero h))

end

theorem Knows.withoutOp (fuel : Nat) : ∀ {t : Term}, n.Knows t → n.Knows (Narsese_GetPreconditionWithoutOp n fuel t) := by
  induction fuel with
  | zero => intro t h; exact h
  | succ fuel ih =>
    intro t h
    unfold Narsese_GetPreconditionWithoutOp
    exact Knows.ite (Knows.ite (ih (h.extract 1)) h) h

theorem Knows.simplify (fuel : Nat) : ∀ {a b : Term}, n.Knows a → n.Knows b →
    n.Knows (simplifySequences n fuel a b).1 ∧ n.Knows (simplifySequences n fuel a b).2 := by
  induction fuel with
  | zero => intro a b ha hb; exact ⟨ha, hb⟩
  | succ fuel ih =>
    intro a b ha hb
    unfold simplifySequences
    split
    · split
      · exact ih (ha.extract 2) (hb.extract 2)
      · split
        · exact ih (ha.extract 1) (hb.extract 1)
        · exact ⟨ha, hb⟩
    · exact ⟨ha, hb⟩

/-! ### Unification and substitution -/

theorem KnowsSubs.upd {m : Nat → Term} (h : n.KnowsSubs m) (k : Nat) {t : Term} (ht : n.Knows t) :
    n.KnowsSubs (upd m k t) := by
  intro j
  rw [upd_apply]
  exact Knows.ite ht (h j)

section
variable [Arith]

theorem Knows.unifyLoop {d : ℚ} {truth : Truth} {general specific : Term} {q : Bool} (hs : n.Knows specific) (k : Nat) :
    ∀ {s r : Substitution}, n.KnowsSubs s.map → ONA.unifyLoop n d truth general specific q k s = .ok r →
    n.KnowsSubs r.map := by
  induction k with
  | zero => intro s r h e; cases e; exact h
  | succ k ih =>
    intro s r h e
    unfold ONA.unifyLoop at e
    dsimp only at e
    split at e
    · exact ih h e
    split at e
    · obtain ⟨_, _, e⟩ := R.bind_eq_ok.1 e
      split at e
      · cases e; exact h
      split at e
      · cases e; exact h
      split at e
      · cases e; exact h
      · exact ih (s := { s with map := _ }) (h.upd _ (hs.extract _)) e
    split at e
    · obtain ⟨o, _, e⟩ := R.bind_eq_ok.1 e
      cases o with
      | none => cases e; exact h
      | some t => exact ih (s := { s with truth := t }) h e
    · exact ih h e

theorem Knows.unify2 {d : ℚ} {truth : Truth} {general specific : Term} {q : Bool} {r : Substitution}
    (hs : n.Knows specific) (e : Variable_Unify2 n d truth general specific q = .ok r) : n.KnowsSubs r.map :=
  Knows.unifyLoop hs _ (s := { Substitution.zero with truth := truth }) (fun _ => knows_zero) e

theorem Knows.unify {general specific : Term} {r : Substitution}
    (hs : n.Knows specific) (e : Variable_Unify n general specific = .ok r) : n.KnowsSubs r.map := Knows.unify2 hs e

theorem Knows.unifyAnalogy {s : Sys} {truth : Truth} {general specific : Term} {r : Substitution}
    (hs : n.Knows specific) (e : s.unifyWithAnalogy n truth general specific = .ok r) : n.KnowsSubs r.map :=
  Knows.unify2 hs e

end

theorem Knows.applyLoop {subs : Substitution} (hs : n.KnowsSubs subs.map) (k : Nat) :
    ∀ {t : Term} {b : Bool} {r : Term × Bool}, n.Knows t → ONA.applyLoop n subs k t b = .ok r → n.Knows r.1 := by
  induction k with
  | zero => intro t b r h e; cases e; exact h
  | succ k ih =>
    intro t b r h e
    unfold ONA.applyLoop at e
    obtain ⟨_, _, e⟩ := R.bind_eq_ok.1 e
    split at e
    · exact ih (h.overrideSubterm _ (hs _)) e
    · exact ih h e

theorem Knows.apply {subs : Substitution} {t : Term} {r : Term × Bool} (h : n.Knows t) (hs : n.KnowsSubs subs.map)
    (e : Variable_ApplySubstitute n t subs = .ok r) : n.Knows r.1 := by
  unfold Variable_ApplySubstitute at e
  obtain ⟨_, _, e⟩ := R.bind_eq_ok.1 e
  exact Knows.applyLoop hs _ h e

/-! ### Variable introduction and normalisation -/

section
variable (hn : n.Base)
include hn

theorem Base.introduceAt {s : IntroState} (h : n.Knows s.term) (i : Nat) (atom : Atom) (indep : Bool) :
    n.Knows (ONA.introduceAt s i atom indep).2.term := by
  have ht : (takeVarID s atom indep).2.term = s.term := by
    unfold takeVarID
    split <;> rfl
  unfold ONA.introduceAt
  dsimp only
  split
  · refine Knows.overrideSubterm ?_ i (knows_zero.put 0 (hn.name _))
    rw [ht]; exact h
  · dsimp only; rw [ht]; exact h

theorem Base.introduceLoop {copy : Term} {self : Atom} {l r o : Nat → Nat} {b : Bool} (k : Nat) :
    ∀ {s : IntroState}, n.Knows s.term → n.Knows (ONA.introduceLoop copy self l r o b k s).2 := by
  induction k with
  | zero => intro s h; exact h
  | succ k ih =>
    intro s h
    unfold ONA.introduceLoop
    dsimp only
    split
    · split
      · have h1 := hn.introduceAt h (COMPOUND_TERM_SIZE_MAX - (k + 1)) (copy.get (COMPOUND_TERM_SIZE_MAX - (k + 1))) true
        split
        · exact ih h1
        · exact h1
      · split
        · exact ih h
        · have h1 := hn.introduceAt h (COMPOUND_TERM_SIZE_MAX - (k + 1)) (copy.get (COMPOUND_TERM_SIZE_MAX - (k + 1))) false
          split
          · exact ih h1
          · exact h1
    · exact ih h

theorem Base.introduceConjLoop {copy : Term} {l : Nat → Nat} (k : Nat) :
    ∀ {s : IntroState}, n.Knows s.term → n.Knows (ONA.introduceConjLoop copy l k s).2 := by
  induction k with
  | zero => intro s h; exact h
  | succ k ih =>
    intro s h
    unfold ONA.introduceConjLoop
    dsimp only
    split
    · have h1 := hn.introduceAt h (COMPOUND_TERM_SIZE_MAX - (k + 1)) (copy.get (COMPOUND_TERM_SIZE_MAX - (k + 1))) false
      split
      · exact ih h1
      · exact h1
    · exact ih h

theorem Base.introduceImplication {t : Term} (h : n.Knows t) {ext : Bool} {side : Nat} {r : Bool × Term}
    (e : Variable_IntroduceImplicationVariables2 n t ext side = .ok r) : n.Knows r.2 := by
  unfold Variable_IntroduceImplicationVariables2 at e
  obtain ⟨_, _, e⟩ := R.bind_eq_ok.1 e
  dsimp only at e
  split at e
  · cases e; exact h
  · cases e
    exact hn.introduceLoop _ h

theorem Base.introduceConjunction {t : Term} (h : n.Knows t) {ext : Bool} {r : Bool × Term}
    (e : Variable_IntroduceConjunctionVariables n t ext = .ok r) : n.Knows r.2 := by
  unfold Variable_IntroduceConjunctionVariables at e
  obtain ⟨_, _, e⟩ := R.bind_eq_ok.1 e
  dsimp only at e
  split at e
  · cases e; exact h
  · cases e
    exact hn.introduceConjLoop _ h

omit hn in
theorem Knows.rename {a b : Atom} (hb : b.toNat ≤ n.term_index) (k : Nat) : ∀ {t : Term} {m : Nat → Bool}, n.Knows t →
    n.Knows (renameLoop a b k t m).1 := by
  induction k with
  | zero => intro t m h; exact h
  | succ k ih =>
    intro t m h
    unfold renameLoop
    dsimp only
    split
    · exact ih (h.put _ hb)
    · exact ih h

theorem Base.normalizeLoop (k : Nat) : ∀ {s : NormState} {r : Term}, n.Knows s.term → ONA.normalizeLoop n k s = .ok r →
    n.Knows r := by
  induction k with
  | zero => intro s r h e; cases e; exact h
  | succ k ih =>
    intro s r h e
    unfold ONA.normalizeLoop at e
    dsimp only at e
    split at e
    · obtain ⟨_, _, e⟩ := R.bind_eq_ok.1 e
      exact ih (Knows.rename (hn.name _) _ h) e
    · exact ih h e

theorem Base.normalize {t r : Term} (h : n.Knows t) (e : Variable_Normalize n t = .ok r) : n.Knows r :=
  hn.normalizeLoop _ (s := ⟨t, _, _⟩) h e

/-! ### Rules -/

omit hn in
/-- The atoms of a generated pattern are initial names. -/
theorem rules_initial : (nalRules.all fun r => r.conclusion.atoms.toList.all fun a => decide (a.toNat ≤ 63)) = true := by
  decide +kernel

omit hn in
theorem reductions_initial : (nalReductions.all fun r => r.2.atoms.toList.all fun a => decide (a.toNat ≤ 63)) = true := by
  decide +kernel

theorem Base.pattern {t : Term} (h : (t.atoms.toList.all fun a => decide (a.toNat ≤ 63)) = true) : n.Knows t := by
  intro i
  rw [List.all_eq_true] at h
  refine le_trans ?_ hn.initial
  unfold Term.get
  cases hg : t.atoms[i]? with
  | none => exact Nat.zero_le _
  | some a =>
    refine of_decide_eq_true (h a ?_)
    rw [Vector.mem_toList_iff]
    exact Vector.mem_of_getElem? hg

omit hn in
theorem Knows.matchLoop {p t : Term} (ht : n.Knows t) (k : Nat) : ∀ {m m' : Nat → Term}, n.KnowsSubs m →
    ONA.matchLoop n p t k m = some m' → n.KnowsSubs m' := by
  induction k with
  | zero => intro m m' h e; cases e; exact h
  | succ k ih =>
    intro m m' h e
    unfold ONA.matchLoop at e
    cases hm : matchAtom n p t (COMPOUND_TERM_SIZE_MAX - (k + 1)) m with
    | none => rw [hm] at e; cases e
    | some m1 =>
      rw [hm] at e
      refine ih ?_ e
      unfold matchAtom at hm
      dsimp only at hm
      split at hm
      · cases hm; exact h
      split at hm
      · split at hm
        · cases hm
        split at hm
        · cases hm
        · cases hm
          exact h.upd _ (ht.extract _)
      split at hm
      · cases hm
      · cases hm; exact h

omit hn in
theorem Knows.conclusionLoop {p : Term} (hp : n.Knows p) {m : Nat → Term} (hm : n.KnowsSubs m) (k : Nat) :
    ∀ {t r : Term}, n.Knows t → ONA.conclusionLoop p m k t = some r → n.Knows r := by
  induction k with
  | zero => intro t r h e; cases e; exact h
  | succ k ih =>
    intro t r h e
    unfold ONA.conclusionLoop at e
    cases hc : conclusionAtom p m (COMPOUND_TERM_SIZE_MAX - (k + 1)) t with
    | none => rw [hc] at e; cases e
    | some t1 =>
      rw [hc] at e
      refine ih ?_ e
      unfold conclusionAtom at hc
      dsimp only at hc
      split at hc
      · cases hc; exact h
      split at hc
      · split at hc
        · rename_i he
          cases hc
          have := h.overrideSubterm (COMPOUND_TERM_SIZE_MAX - (k + 1)) (hm (p.get (COMPOUND_TERM_SIZE_MAX - (k + 1))).toNat)
          rw [he] at this
          exact this
        · cases hc
      · cases hc
        exact h.put _ (hp _)

theorem Base.conclusion {p : Term} (hp : (p.atoms.toList.all fun a => decide (a.toNat ≤ 63)) = true) {m : Nat → Term}
    (hm : n.KnowsSubs m) {r : Term} (e : buildConclusion p m = some r) : n.Knows r :=
  Knows.conclusionLoop (hn.pattern hp) hm _ knows_zero e

theorem Base.reduce {t : Term} (h : n.Knows t) : n.Knows (RuleTable_Reduce n t) := by
  unfold RuleTable_Reduce
  cases hf : nalReductions.findSome? fun r => applyReduction n r t with
  | none => exact h
  | some u =>
    obtain ⟨r, hmem, hr⟩ := List.exists_of_findSome?_eq_some hf
    unfold applyReduction at hr
    cases hm : matchPremise n r.1 t (fun _ => Term.zero) with
    | none => rw [hm] at hr; cases hr
    | some m =>
      rw [hm] at hr
      exact hn.conclusion (List.all_eq_true.1 reductions_initial r hmem) (Knows.matchLoop h _ (fun _ => knows_zero) hm) hr

theorem Base.ruleConclusion {r : Rule} (hr : r ∈ nalRules) {t1 t2 t : Term} {b : Bool} (h1 : n.Knows t1) (h2 : n.Knows t2)
    (e : ONA.ruleConclusion n r t1 t2 b = some t) : n.Knows t := by
  unfold ONA.ruleConclusion at e
  cases hp : r.premise2 with
  | none =>
    rw [hp] at e
    dsimp only at e
    split at e
    · cases e
    cases hm : matchPremise n r.premise1 t1 (fun _ => Term.zero) with
    | none => rw [hm] at e; cases e
    | some m =>
      rw [hm] at e
      exact hn.conclusion (List.all_eq_true.1 rules_initial r hr) (Knows.matchLoop h1 _ (fun _ => knows_zero) hm) e
  | some p2 =>
    rw [hp] at e
    dsimp only at e
    split at e
    · cases e
    cases hm : matchPremise n r.premise1 t1 (fun _ => Term.zero) with
    | none => rw [hm] at e; cases e
    | some m =>
      rw [hm] at e
      dsimp only at e
      cases hm2 : matchPremise n p2 t2 m with
      | none => rw [hm2] at e; cases e
      | some m2 =>
        rw [hm2] at e
        exact hn.conclusion (List.all_eq_true.1 rules_initial r hr) (Knows.matchLoop h2 _ (Knows.matchLoop h1 _ (fun _ => knows_zero) hm) hm2) e

/-! ### Decision and cycle -/

theorem Base.babble {t : Term} (h : n.Knows t) : n.Knows (babbleArguments n t) :=
  ((((knows_zero.put 0 (hn.copula _)).put 1 (hn.copula _)).overrideSubterm 2 h).put 3 hn.self).put 4 (hn.copula _)

theorem Base.attributePair {t : Term} (h : n.Knows t) : n.Knows (ONA.attributePair n t).1 ∧ n.Knows (ONA.attributePair n t).2 := by
  unfold ONA.attributePair
  split
  · exact ⟨((knows_zero.put 0 (hn.copula _)).overrideSubterm 1 (h.extract 4)).overrideSubterm 2 (h.extract 2), h.extract 3⟩
  · exact ⟨h, knows_zero⟩

theorem Base.attributeRelationTerm {t rest : Term} (h : n.Knows t) (hr : n.Knows rest) (v1 v2 : ℚ) :
    n.Knows (ONA.attributeRelationTerm n t rest v1 v2) := by
  have hc (c d : Char) (p : Prop) [Decidable p] : (if p then copulaAtom c else copulaAtom d).toNat ≤ n.term_index := by
    split <;> exact hn.copula _
  have h1 := ((knows_zero (n := n)).put 0 (hc INHERITANCE HAS_CONTINUOUS_PROPERTY
    (Narsese_copulaEquals n (t.get 1) INHERITANCE = true))).put 1 (hn.copula PRODUCT)
  have h2 := h1.put 2 (hc SEQUENCE SIMILARITY (v1 > v2 ∨ v1 < v2))
  have h3 := h2.overrideSubterm 3 (Knows.ite (c := v1 < v2) (h.extract 11) (h.extract 7))
  have h4 := h3.overrideSubterm 4 (Knows.ite (c := v1 < v2) (h.extract 7) (h.extract 11))
  have h5 := ((h4.overrideSubterm 5 (h.extract 4)).overrideSubterm 6 (h.extract 4)).put 6 (hn.copula SET_TERMINATOR)
  exact Knows.ite h5 (((knows_zero.put 0 (hn.copula SEQUENCE)).overrideSubterm 1 hr).overrideSubterm 2 h5)

theorem Base.attributeRelation {t u : Term} (h : n.Knows t) (e : ONA.attributeRelation n t = .ok (some u)) : n.Knows u := by
  unfold ONA.attributeRelation at e
  dsimp only at e
  split at e
  · obtain ⟨b1, _, e⟩ := R.bind_eq_ok.1 e
    split at e
    · obtain ⟨b2, _, e⟩ := R.bind_eq_ok.1 e
      split at e
      · obtain ⟨v1, _, e⟩ := R.bind_eq_ok.1 e
        obtain ⟨v2, _, e⟩ := R.bind_eq_ok.1 e
        cases e
        exact hn.attributeRelationTerm (hn.attributePair h).1 (hn.attributePair h).2 v1 v2
      · cases e
    · cases e
  · cases e

omit hn in
theorem Knows.goalComponents (fuel : Nat) : ∀ {i : Nat} {t : Term} {l r : List Term}, n.Knows t → (∀ u ∈ l, n.Knows u) →
    ONA.goalComponents n fuel i t l = .ok r → ∀ u ∈ r, n.Knows u := by
  induction fuel with
  | zero => intro i t l r _ _ e; cases e
  | succ fuel ih =>
    intro i t l r ht hl e
    unfold ONA.goalComponents at e
    have ha {v : Term} (hv : n.Knows v) : ∀ u ∈ l ++ [v], n.Knows u := by
      intro u hu
      rcases List.mem_append.1 hu with h | h
      · exact hl u h
      · rw [List.mem_singleton.1 h]; exact hv
    split at e
    · obtain ⟨_, _, e⟩ := R.bind_eq_ok.1 e
      exact ih (ht.extract 1) (ha (ht.extract 2)) e
    · split at e
      · cases e; exact ha ht
      · cases e

omit hn in
theorem knows_getD {l : List Term} (h : ∀ u ∈ l, n.Knows u) (j : Nat) : n.Knows (l.getD j Term.zero) := by
  rw [List.getD_eq_getElem?_getD]
  cases hj : l[j]? with
  | none => exact knows_zero
  | some u => exact h u (List.mem_of_getElem? hj)

omit hn in
theorem Knows.substituteComponents {subs : Substitution} (hs : n.KnowsSubs subs.map) (j : Nat) :
    ∀ {l r : List Term}, (∀ u ∈ l, n.Knows u) → ONA.substituteComponents n subs j l = .ok r → ∀ u ∈ r, n.Knows u := by
  induction j with
  | zero => intro l r h e; cases e; exact h
  | succ j ih =>
    intro l r h e
    unfold ONA.substituteComponents at e
    obtain ⟨v, hv, e⟩ := R.bind_eq_ok.1 e
    obtain ⟨_, _, e⟩ := R.bind_eq_ok.1 e
    refine ih ?_ e
    intro u hu
    rcases List.mem_or_eq_of_mem_set hu with h1 | h1
    · exact h u h1
    · rw [h1]; exact (knows_getD h j).apply hs hv

theorem Base.feedback {op args t : Term} (h1 : n.Knows op) (h2 : n.Knows args)
    (e : operationFeedbackTerm op args = some t) : n.Knows t := by
  unfold operationFeedbackTerm at e
  split at e
  · dsimp only at e
    split at e
    · cases e; exact hn.compound _ h2 h1
    · cases e
  · cases e; exact h1

end
end Narsese
end ONA
