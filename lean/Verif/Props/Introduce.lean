import Verif.Proofs.Introduce
import Verif.Props.Normalize
/-
Properties of the introduction of variables (src/Variable.c 149-429): C61.
-/
namespace ONA

theorem newVarID_fresh {t : Term} {indep : Bool} (hg : NoGaps t (if indep then '$' else '#')) (h0 : newVarID t indep ≠ 0)
    {l : Nat} (hl : newVarID t indep ≤ l) (h9 : l ≤ 9) : ¬ t.HasAt (introVar indep l) := by
  obtain ⟨h1, h2, h3⟩ := newVarIDLoop_spec t (if indep then '$' else '#') 9 (Nat.le_refl _) h0
  intro hh
  have := hg (newVarID t indep) l h1 hl h9 hh
  have hne : introVar indep (newVarID t indep) ≠ 0 := introVar_ne_zero h1 h2
  have h4 := (hasAtom_iff hne).2 this
  have h5 : Term_HasAtom t (introVar indep (newVarID t indep)) = false := h3
  rw [h5] at h4; cases h4

theorem introVar_inj {b c : Bool} {l m : Nat} (h1 : 1 ≤ l) (h9 : l ≤ 9) (h1' : 1 ≤ m) (h9' : m ≤ 9)
    (h : introVar b l = introVar c m) : b = c ∧ l = m := by
  have hk : ∀ b : Bool, (if b then '$' else '#') ∈ varKinds := by decide
  obtain ⟨h1, h2⟩ := nameAtom_inj (hk b) (hk c) h1 h9 h1' h9' h
  refine ⟨?_, h2⟩
  cases b <;> cases c <;> first | rfl | exact absurd h1 (by decide)

theorem generalisation_of_inv {n : Narsese} {t : Term} {choice : Atom → Option Bool} {start : Bool → Nat} {s : IntroState}
    (h : IntroInv t choice start COMPOUND_TERM_SIZE_MAX s) (hs : ∀ a, choice a ≠ none → Narsese_IsSimpleAtom n a = true)
    (hf : ∀ ind l, (∃ a, choice a = some ind) → start ind ≤ l → l ≤ 9 → ¬ t.HasAt (introVar ind l)) :
    Generalisation n t s.term (introRep choice s.variable_id) := by
  have hrep : ∀ a v, introRep choice s.variable_id a = some v → ∃ ind, choice a = some ind ∧ s.variable_id a.toNat ≠ 0 ∧
      s.variable_id a.toNat ≤ 9 ∧ v = introVar ind (s.variable_id a.toNat) := by
    intro a v hv
    unfold introRep at hv
    cases hc : choice a with
    | none => rw [hc] at hv; cases hv
    | some ind =>
      rw [hc] at hv
      dsimp only at hv
      split at hv
      · rename_i h'; exact ⟨ind, rfl, h'.1, h'.2, (Option.some.inj hv).symm⟩
      · cases hv
  refine ⟨fun i => ?_, fun a v hv => ?_, fun a v hv => ?_, fun a v hv => ?_, fun a b v ha hb => ?_⟩
  · rw [h.term i]
    by_cases hi : i < COMPOUND_TERM_SIZE_MAX
    · rw [if_pos hi]
    · rw [if_neg hi]
      have : t.get i = 0 := by
        by_contra h0; exact hi (Term.lt_of_get_ne h0)
      rw [this]
      cases hv : introRep choice s.variable_id 0 with
      | none => rfl
      | some v =>
        exfalso
        obtain ⟨ind, hc, -⟩ := hrep 0 v hv
        exact simple_ne_zero (hs 0 (by rw [hc]; exact Option.some_ne_none _)) rfl
  · obtain ⟨ind, hc, -⟩ := hrep a v hv
    exact hs a (by rw [hc]; exact Option.some_ne_none _)
  · obtain ⟨ind, hc, h1, h9, rfl⟩ := hrep a v hv
    refine ⟨_, Nat.one_le_iff_ne_zero.2 h1, h9, ?_⟩
    cases ind
    · exact Or.inr rfl
    · exact Or.inl rfl
  · obtain ⟨ind, hc, h1, h9, rfl⟩ := hrep a v hv
    exact hf ind _ ⟨a, hc⟩ (h.range a ind hc h1).1 h9
  · obtain ⟨ind, hc, h1, h9, rfl⟩ := hrep a v ha
    obtain ⟨ind', hc', h1', h9', e⟩ := hrep b _ hb
    obtain ⟨rfl, e2⟩ := introVar_inj (Nat.one_le_iff_ne_zero.2 h1) h9 (Nat.one_le_iff_ne_zero.2 h1') h9' e
    exact h.inj a b ind hc hc' h1 e2

/-- A generalisation has its original as instance: putting the replaced atoms back gives it. -/
theorem Generalisation.instance_of {n : Narsese} {t r : Term} {ν : Atom → Option Atom} (h : Generalisation n t r ν) :
    ∃ σ : Atom → Atom, (∀ i, t.get i = σ (r.get i)) ∧ ∀ v, (∀ a, ν a ≠ some v) → σ v = v := by
  classical
  refine ⟨fun v => if hv : ∃ a, ν a = some v then hv.choose else v, fun i => ?_, fun v hv => ?_⟩
  · rw [h.atoms i]
    cases he : ν (t.get i) with
    | none =>
      have : ¬ ∃ a, ν a = some (t.get i) := fun ⟨a, ha⟩ => h.fresh a _ ha ⟨i, rfl⟩
      show t.get i = dite _ _ _
      rw [dif_neg (by simpa using this)]; rfl
    | some v =>
      have hv : ∃ a, ν a = some v := ⟨_, he⟩
      show t.get i = dite _ _ _
      rw [dif_pos (by simpa using hv)]
      exact h.inj _ _ v he (by simpa using (show ∃ a, ν a = some ((some v).getD (t.get i)) by simpa using hv).choose_spec)
  · have : ¬ ∃ a, ν a = some v := fun ⟨a, ha⟩ => hv a ha
    exact dif_neg this

/-- All variables of a kind which were free in `t` are used by `ν`. -/
def Exhausted (t : Term) (ν : Atom → Option Atom) (indep : Bool) : Prop :=
  ∀ l, newVarID t indep ≤ l → l ≤ 9 → ∃ b, ν b = some (introVar indep l)

theorem chosen_of_inv {t : Term} {choice : Atom → Option Bool} {start : Bool → Nat} {s : IntroState}
    (h : IntroInv t choice start COMPOUND_TERM_SIZE_MAX s) {a : Atom} {ind : Bool} (hc : choice a = some ind)
    (ha : t.HasAt a) (h0 : a ≠ 0) :
    (∃ l, 1 ≤ l ∧ l ≤ 9 ∧ introRep choice s.variable_id a = some (introVar ind l)) ∨
      ∀ l, start ind ≤ l → l ≤ 9 → ∃ b, introRep choice s.variable_id b = some (introVar ind l) := by
  obtain ⟨i, rfl⟩ := ha
  have hv : s.variable_id (t.get i).toNat ≠ 0 :=
    (h.dom _).2 ⟨by rw [hc]; exact Option.some_ne_none _, i, Term.lt_of_get_ne h0, rfl⟩
  by_cases h9 : s.variable_id (t.get i).toNat ≤ 9
  · left
    refine ⟨_, Nat.one_le_iff_ne_zero.2 hv, h9, ?_⟩
    unfold introRep
    rw [hc]
    exact if_pos ⟨hv, h9⟩
  · right
    intro l hl hl9
    have := (h.range _ ind hc hv).2
    obtain ⟨b, hb, e⟩ := h.surj ind l hl (by omega)
    refine ⟨b, ?_⟩
    unfold introRep
    rw [hb]
    show (if _ then _ else _) = _
    rw [e]
    have := (h.counter ind).1
    exact if_pos ⟨by omega, hl9⟩

/-- **C61 (implications, partial).** Variable introduction into an implication or equivalence whose variables are
numbered without gaps never fails once it starts, and gives a generalisation of it: some simple atoms are consistently
replaced by fresh variables, different atoms by different variables, everything else is unchanged. Independent
variables only replace atoms occurring on both sides. Every atom counted on both sides is replaced by an independent
variable, every atom counted at least twice on one side only by a dependent one (except SELF in operation sequences),
as long as there are free variables. Missing: terms whose variables have gaps, where it is false
(`C61_captures`). -/
theorem C61_implication_partial (n : Narsese) (t : Term) (extensionally : Bool) (side : Nat) (ok : Bool) (r : Term)
    (h : Variable_IntroduceImplicationVariables2 n t extensionally side = .ok (ok, r))
    (hd : NoGaps t '#') (hi : NoGaps t '$') :
    (ok = false ∧ r = t ∧ (newVarID t true = 0 ∨ newVarID t false = 0)) ∨
    (ok = true ∧ ∃ ν, Generalisation n t r ν ∧
      (∀ a l, 1 ≤ l → l ≤ 9 → ν a = some (nameAtom (varName '$' l)) →
        (Term_ExtractSubterm t 1).HasAt a ∧ (Term_ExtractSubterm t 2).HasAt a) ∧
      ∀ a, t.HasAt a →
        let count := countHigherOrderStatementAtoms n extensionally side termDepth
        let left := count (Term_ExtractSubterm t 1) (fun _ => 0)
        let right := count (Term_ExtractSubterm t 2) (fun _ => 0)
        (left a.toNat ≠ 0 ∧ right a.toNat ≠ 0 →
          (∃ l, 1 ≤ l ∧ l ≤ 9 ∧ ν a = some (nameAtom (varName '$' l))) ∨ Exhausted t ν true) ∧
        ((2 ≤ left a.toNat ∧ right a.toNat = 0 ∧ a ≠ n.SELF) ∨ (left a.toNat = 0 ∧ 2 ≤ right a.toNat) →
          (∃ l, 1 ≤ l ∧ l ≤ 9 ∧ ν a = some (nameAtom (varName '#' l))) ∨ Exhausted t ν false)) := by
  unfold Variable_IntroduceImplicationVariables2 at h
  obtain ⟨_, -, h⟩ := R.bind_eq_ok.1 h
  dsimp only at h
  split at h
  · rename_i h0
    have := Except.ok.inj h
    simp only [Prod.mk.injEq] at this
    exact Or.inl ⟨this.1.symm, this.2.symm, by omega⟩
  · rename_i h0
    right
    rw [introduceLoop_choose] at h
    set left := countHigherOrderStatementAtoms n extensionally side termDepth (Term_ExtractSubterm t 1) (fun _ => 0) with hl
    set right := countHigherOrderStatementAtoms n extensionally side termDepth (Term_ExtractSubterm t 2) (fun _ => 0) with hr
    generalize hch : implChoice _ left right _ _ = choice at h
    have hL : ∀ a : Atom, left a.toNat ≠ 0 → Narsese_IsSimpleAtom n a = true ∧ (Term_ExtractSubterm t 1).HasAt a := by
      intro a ha
      rcases countHigherOrder_in n extensionally side termDepth (Term_ExtractSubterm t 1) (fun _ => 0) a ha with h1 | h1
      · exact absurd rfl h1
      · exact h1
    have hR : ∀ a : Atom, right a.toNat ≠ 0 → Narsese_IsSimpleAtom n a = true ∧ (Term_ExtractSubterm t 2).HasAt a := by
      intro a ha
      rcases countHigherOrder_in n extensionally side termDepth (Term_ExtractSubterm t 2) (fun _ => 0) a ha with h1 | h1
      · exact absurd rfl h1
      · exact h1
    have hsimple : ∀ a, choice a ≠ none → Narsese_IsSimpleAtom n a = true := by
      intro a ha
      rw [← hch] at ha
      unfold implChoice at ha
      split at ha
      · rename_i hc
        rcases hc with hc | hc | hc
        · exact (hL a (by omega)).1
        · exact (hR a (by omega)).1
        · exact (hL a hc.1).1
      · exact absurd rfl ha
    have hboth : ∀ a, choice a = some true → left a.toNat ≠ 0 ∧ right a.toNat ≠ 0 := by
      intro a ha
      rw [← hch] at ha
      unfold implChoice at ha
      split at ha
      · split at ha
        · assumption
        · revert ha; split <;> simp
      · cases ha
    have hz : choice 0 = none := by
      by_contra hne
      exact simple_ne_zero (hsimple 0 hne) rfl
    have hinv : IntroInv t choice (fun b => newVarID t b) (COMPOUND_TERM_SIZE_MAX - COMPOUND_TERM_SIZE_MAX)
        ⟨t, fun _ => 0, newVarID t false, newVarID t true⟩ := by
      rw [Nat.sub_self]
      refine ⟨fun i => by rw [if_neg (by omega)], fun a => ⟨fun h => absurd rfl h, fun ⟨_, i, hi, _⟩ => absurd hi (by omega)⟩,
        fun a ind _ h => absurd rfl h, fun a b ind _ _ h => absurd rfl h, fun ind => ?_,
        fun ind l h1 h2 => absurd h1 (by cases ind <;> exact Nat.not_le.2 h2)⟩
      cases ind
      · exact ⟨Nat.one_le_iff_ne_zero.2 fun h => h0 (Or.inl h), Nat.le_refl _⟩
      · exact ⟨Nat.one_le_iff_ne_zero.2 fun h => h0 (Or.inr h), Nat.le_refl _⟩
    obtain ⟨s', e, inv⟩ := chooseLoop_spec hz COMPOUND_TERM_SIZE_MAX _ (Nat.le_refl _) hinv
    rw [e] at h
    have := Except.ok.inj h
    simp only [Prod.mk.injEq] at this
    obtain ⟨e1, e2⟩ := this
    refine ⟨e1.symm, introRep choice s'.variable_id, ?_, ?_, fun a ha => ⟨fun hb => ?_, fun hb => ?_⟩⟩
    rotate_left 2
    · have hc : choice a = some true := by
        rw [← hch]; unfold implChoice; rw [if_pos (Or.inr (Or.inr hb)), if_pos hb]
      exact chosen_of_inv inv hc ha (simple_ne_zero (hL a hb.1).1)
    · have hc : choice a = some false ∧ a ≠ 0 := by
        rw [← hch]; unfold implChoice
        rcases hb with ⟨b1, b2, b3⟩ | ⟨b1, b2⟩
        · rw [if_pos (Or.inl b1), if_neg (fun h => h.2 b2), if_neg (fun h => b3 h.1)]
          exact ⟨rfl, simple_ne_zero (hL a (Nat.ne_of_gt (Nat.lt_of_lt_of_le Nat.two_pos b1))).1⟩
        · rw [if_pos (Or.inr (Or.inl b2)), if_neg (fun h => h.1 b1), if_neg (fun h => h.2.2.1 (h.2.2.2.symm.trans b1))]
          exact ⟨rfl, simple_ne_zero (hR a (Nat.ne_of_gt (Nat.lt_of_lt_of_le Nat.two_pos b2))).1⟩
      exact chosen_of_inv inv hc.1 ha hc.2
    · rw [← e2]
      refine generalisation_of_inv inv hsimple fun ind l _ hs h9 => ?_
      cases ind
      · exact newVarID_fresh hd (fun h => h0 (Or.inl h)) hs h9
      · exact newVarID_fresh hi (fun h => h0 (Or.inr h)) hs h9
    · intro a l h1 h9 ha
      have : choice a = some true := by
        unfold introRep at ha
        cases hc : choice a with
        | none => rw [hc] at ha; cases ha
        | some ind =>
          rw [hc] at ha
          dsimp only at ha
          split at ha
          · rename_i hv
            have e3 : introVar ind (s'.variable_id a.toNat) = introVar true l := Option.some.inj ha
            rw [(introVar_inj (Nat.one_le_iff_ne_zero.2 hv.1) hv.2 h1 h9 e3).1]
          · cases ha
      obtain ⟨b1, b2⟩ := hboth a this
      exact ⟨(hL a b1).2, (hR a b2).2⟩

/-- **C61 (conjunctions, partial).** The same for conjunctions, where only dependent variables are introduced. -/
theorem C61_conjunction_partial (n : Narsese) (t : Term) (extensionally : Bool) (ok : Bool) (r : Term)
    (h : Variable_IntroduceConjunctionVariables n t extensionally = .ok (ok, r)) (hd : NoGaps t '#') :
    (ok = false ∧ r = t ∧ newVarID t false = 0) ∨
    (ok = true ∧ ∃ ν, Generalisation n t r ν ∧
      (∀ a v, ν a = some v → ∃ l, 1 ≤ l ∧ l ≤ 9 ∧ v = nameAtom (varName '#' l)) ∧
      ∀ a, t.HasAt a → 2 ≤ countHigherOrderStatementAtoms n extensionally 0 termDepth t (fun _ => 0) a.toNat →
        (∃ l, 1 ≤ l ∧ l ≤ 9 ∧ ν a = some (nameAtom (varName '#' l))) ∨ Exhausted t ν false) := by
  unfold Variable_IntroduceConjunctionVariables at h
  obtain ⟨_, -, h⟩ := R.bind_eq_ok.1 h
  dsimp only at h
  split at h
  · rename_i h0
    have := Except.ok.inj h
    simp only [Prod.mk.injEq] at this
    exact Or.inl ⟨this.1.symm, this.2.symm, h0⟩
  · rename_i h0
    right
    rw [introduceConjLoop_choose] at h
    set left := countHigherOrderStatementAtoms n extensionally 0 termDepth t (fun _ => 0) with hl
    generalize hch : (fun a : Atom => if left a.toNat ≥ 2 then some false else none) = choice at h
    have hsimple : ∀ a, choice a ≠ none → Narsese_IsSimpleAtom n a = true := by
      intro a ha
      rw [← hch] at ha
      dsimp only at ha
      split at ha
      · rename_i hc
        rcases countHigherOrder_in n extensionally 0 termDepth t (fun _ => 0) a (by rw [← hl]; omega) with h1 | h1
        · exact absurd rfl h1
        · exact h1.1
      · exact absurd rfl ha
    have hdep : ∀ a ind, choice a = some ind → ind = false := by
      intro a ind ha
      rw [← hch] at ha
      dsimp only at ha
      split at ha
      · exact (Option.some.inj ha).symm
      · cases ha
    have hz : choice 0 = none := by
      by_contra hne
      exact simple_ne_zero (hsimple 0 hne) rfl
    have hinv : IntroInv t choice (fun b => if b then 1 else newVarID t false)
        (COMPOUND_TERM_SIZE_MAX - COMPOUND_TERM_SIZE_MAX) ⟨t, fun _ => 0, newVarID t false, 1⟩ := by
      rw [Nat.sub_self]
      refine ⟨fun i => by rw [if_neg (by omega)], fun a => ⟨fun h => absurd rfl h, fun ⟨_, i, hi, _⟩ => absurd hi (by omega)⟩,
        fun a ind _ h => absurd rfl h, fun a b ind _ _ h => absurd rfl h, fun ind => ?_,
        fun ind l h1 h2 => absurd h1 (by cases ind <;> exact Nat.not_le.2 h2)⟩
      cases ind
      · exact ⟨Nat.one_le_iff_ne_zero.2 h0, Nat.le_refl _⟩
      · exact ⟨Nat.le_refl 1, Nat.le_refl _⟩
    obtain ⟨s', e, inv⟩ := chooseLoop_spec hz COMPOUND_TERM_SIZE_MAX _ (Nat.le_refl _) hinv
    rw [e] at h
    have := Except.ok.inj h
    simp only [Prod.mk.injEq] at this
    obtain ⟨e1, e2⟩ := this
    refine ⟨e1.symm, introRep choice s'.variable_id, ?_, ?_, fun a ha hb => ?_⟩
    rotate_left 2
    · have hc : choice a = some false := by rw [← hch]; exact if_pos hb
      exact chosen_of_inv inv hc ha (simple_ne_zero (hsimple a (by rw [hc]; exact Option.some_ne_none _)))
    · rw [← e2]
      refine generalisation_of_inv inv hsimple fun ind l ⟨a, ha⟩ hs h9 => ?_
      obtain rfl := hdep a ind ha
      exact newVarID_fresh hd h0 hs h9
    · intro a v ha
      unfold introRep at ha
      cases hc : choice a with
      | none => rw [hc] at ha; cases ha
      | some ind =>
        rw [hc] at ha
        obtain rfl := hdep a ind hc
        dsimp only at ha
        split at ha
        · rename_i hv
          exact ⟨_, Nat.one_le_iff_ne_zero.2 hv.1, hv.2, (Option.some.inj ha).symm⟩
        · cases ha

/-! ### Examples -/

/-- `<<(cat * eats) --> animal> ==> <(cat * eats) --> x>>` where `x` is the given atom. -/
def demoImpl (x : Atom) : Term :=
  let t := ((Term.zero.put 0 (copulaAtom IMPLICATION)).put 1 (copulaAtom INHERITANCE)).put 2 (copulaAtom INHERITANCE)
  let t := (((t.put 3 (copulaAtom PRODUCT)).put 4 65).put 5 (copulaAtom PRODUCT)).put 6 x
  (((t.put 7 64).put 8 66).put 11 64).put 12 66

/-- The subjects are generalised: `<<($1 * $2) --> animal> ==> <($1 * $2) --> animal>>`. -/
example : (match Variable_IntroduceImplicationVariables demoNarsese (demoImpl 65) true with
    | .ok (ok, r) => decide (ok = true ∧ r.get 7 = nameAtom ['$', '1'] ∧ r.get 8 = nameAtom ['$', '2'] ∧
        r.get 11 = nameAtom ['$', '1'] ∧ r.get 12 = nameAtom ['$', '2'] ∧ r.get 4 = 65 ∧ r.get 6 = 65)
    | .error _ => false) = true := by decide +kernel

/-- **C61 (negation).** If the term contains `$2` but not `$1`, the second introduced variable is `$2` as well:
`<<(cat * eats) --> animal> ==> <(cat * eats) --> $2>>` becomes `<<($1 * $2) --> animal> ==> <($1 * $2) --> $2>>`, which
does not have the original as instance. -/
theorem C61_captures : ∃ r, Variable_IntroduceImplicationVariables demoNarsese (demoImpl (nameAtom ['$', '2'])) true =
      .ok (true, r) ∧ (demoImpl (nameAtom ['$', '2'])).get 6 ≠ (demoImpl (nameAtom ['$', '2'])).get 8 ∧ r.get 6 = r.get 8 := by
  have h : (match Variable_IntroduceImplicationVariables demoNarsese (demoImpl (nameAtom ['$', '2'])) true with
    | .ok (ok, r) => decide (ok = true ∧ (demoImpl (nameAtom ['$', '2'])).get 6 ≠ (demoImpl (nameAtom ['$', '2'])).get 8 ∧
        r.get 6 = r.get 8)
    | .error _ => false) = true := by decide +kernel
  split at h
  · rename_i ok r e
    have h' := of_decide_eq_true h
    obtain ⟨rfl, h2⟩ := h'
    exact ⟨r, e, h2⟩
  · cases h

/-- The hypotheses about gaps hold for a term without variables. -/
theorem noGaps_of_check {t : Term} {kind : Char} (h : ∀ l, l < 10 → 1 ≤ l → ∀ i, i < COMPOUND_TERM_SIZE_MAX →
    t.get i ≠ nameAtom (varName kind l)) (hk : kind ∈ varKinds) : NoGaps t kind := by
  rintro l l' h1 h2 h9 ⟨i, hi⟩
  exfalso
  have hne : nameAtom (varName kind l') ≠ 0 := by
    have : ∀ kind ∈ varKinds, ∀ l, l < 10 → 1 ≤ l → nameAtom (varName kind l) ≠ 0 := by decide +kernel
    exact this kind hk l' (by omega) (by omega)
  exact h l' (by omega) (by omega) i (Term.lt_of_get_ne (by rw [hi]; exact hne)) hi

example : NoGaps (demoImpl 65) '$' ∧ NoGaps (demoImpl 65) '#' :=
  ⟨noGaps_of_check (by decide +kernel) (by decide), noGaps_of_check (by decide +kernel) (by decide)⟩

end ONA
