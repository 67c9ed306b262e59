import Verif.Spec.Introduce
import Verif.Proofs.Tree
import Verif.Props.Term
import Mathlib.Tactic.Set
namespace ONA

theorem extract_hasAt {t : Term} {j i : Nat} (h : (Term_ExtractSubterm t j).get i ≠ 0) :
    t.HasAt ((Term_ExtractSubterm t j).get i) := by
  obtain ⟨p, rfl⟩ := exists_path i
  rw [extract_get] at h ⊢
  split
  · exact ⟨_, rfl⟩
  · rename_i hp; rw [if_neg hp] at h; exact absurd rfl h

/-- What `m'` adds to `m` are simple atoms of `t`. -/
def CountsIn (n : Narsese) (t : Term) (m m' : Nat → Nat) : Prop :=
  ∀ a : Atom, m' a.toNat ≠ 0 → m a.toNat ≠ 0 ∨ (Narsese_IsSimpleAtom n a = true ∧ t.HasAt a)

theorem CountsIn.refl (n : Narsese) (t : Term) (m : Nat → Nat) : CountsIn n t m m := fun _ h => Or.inl h

theorem CountsIn.trans {n : Narsese} {t : Term} {m m' m'' : Nat → Nat} (h : CountsIn n t m m') (h' : CountsIn n t m' m'') :
    CountsIn n t m m'' := by
  intro a ha
  rcases h' a ha with h1 | h1
  · exact h a h1
  · exact Or.inr h1

theorem simple_ne_zero {n : Narsese} {a : Atom} (h : Narsese_IsSimpleAtom n a = true) : a ≠ 0 := by
  intro hz
  unfold Narsese_IsSimpleAtom at h
  rw [Bool.and_eq_true] at h
  exact of_decide_eq_true h.1 hz

theorem CountsIn.extract {n : Narsese} {t : Term} {j : Nat} {m m' : Nat → Nat}
    (h : CountsIn n (Term_ExtractSubterm t j) m m') : CountsIn n t m m' := by
  intro a ha
  rcases h a ha with h1 | ⟨h1, i, h2⟩
  · exact Or.inl h1
  · refine Or.inr ⟨h1, ?_⟩
    have h0 := simple_ne_zero h1
    rw [← h2] at h0 ⊢
    exact extract_hasAt h0

theorem CountsIn.ite {n : Narsese} {t : Term} {m m1 m2 : Nat → Nat} {c : Prop} [Decidable c]
    (h1 : CountsIn n t m m1) (h2 : CountsIn n t m m2) : CountsIn n t m (if c then m1 else m2) := by
  split <;> assumption

theorem countAtoms_in (n : Narsese) (t : Term) (m : Nat → Nat) : CountsIn n t m (countAtoms n t m) := by
  unfold countAtoms
  generalize List.range COMPOUND_TERM_SIZE_MAX = l
  induction l generalizing m with
  | nil => exact CountsIn.refl _ _ _
  | cons i l ih =>
    rw [List.foldl_cons]
    refine CountsIn.trans ?_ (ih _)
    split
    · rename_i hs
      intro a ha
      by_cases he : a.toNat = (t.get i).toNat
      · have : a = t.get i := BitVec.eq_of_toNat_eq he
        subst this
        exact Or.inr ⟨hs, i, rfl⟩
      · rw [upd_other _ _ he] at ha
        exact Or.inl ha
    · exact CountsIn.refl _ _ _

section
attribute [local irreducible] Term_ExtractSubterm countAtoms Narsese_copulaEquals

theorem countStatementAtoms_in (n : Narsese) (e sc : Bool) (side : Nat) : ∀ (fuel : Nat) (t : Term) (ig : Bool)
    (m : Nat → Nat), CountsIn n t m (countStatementAtoms n e sc side fuel t ig m) := by
  intro fuel
  induction fuel with
  | zero => intro t ig m; exact CountsIn.refl _ _ _
  | succ fuel ih =>
    intro t ig m
    rw [countStatementAtoms]
    have h1 : ∀ (x : Nat) m, CountsIn n t m (countStatementAtoms n e sc side fuel (Term_ExtractSubterm t x) true m) :=
      fun x m => (ih _ _ m).extract
    have h2 : ∀ (x y : Nat) m, CountsIn n t m (countStatementAtoms n e sc side fuel
        (Term_ExtractSubterm (Term_ExtractSubterm t x) y) true m) := fun x y m => (ih _ _ m).extract.extract
    have h3 : ∀ m, CountsIn n t m (countAtoms n t m) := countAtoms_in n t
    have r := CountsIn.refl n t
    dsimp only
    repeat' first
      | exact r _
      | refine CountsIn.ite ?_ ?_
      | refine CountsIn.trans ?_ (h3 _)
      | refine CountsIn.trans ?_ (h2 _ _ _)
      | refine CountsIn.trans ?_ (h1 _ _)

theorem countHigherOrder_in (n : Narsese) (e : Bool) (side : Nat) : ∀ (fuel : Nat) (t : Term)
    (m : Nat → Nat), CountsIn n t m (countHigherOrderStatementAtoms n e side fuel t m) := by
  intro fuel
  induction fuel with
  | zero => intro t m; exact CountsIn.refl _ _ _
  | succ fuel ih =>
    intro t m
    rw [countHigherOrderStatementAtoms]
    refine CountsIn.ite (ih _ _).extract (CountsIn.ite ?_ (countStatementAtoms_in n e _ side _ t false m))
    exact (ih _ _).extract.trans (ih _ _).extract

end

/-- The common form of the two introduction loops: `choice a` is `some true` if the atom gets an independent variable,
`some false` if it gets a dependent one. -/
def chooseLoop (copy : Term) (choice : Atom → Option Bool) : Nat → IntroState → Bool × Term
  | 0, s => (true, s.term)
  | k + 1, s =>
    let i := COMPOUND_TERM_SIZE_MAX - (k + 1)
    match choice (copy.get i) with
    | none => chooseLoop copy choice k s
    | some indep =>
      let r := introduceAt s i (copy.get i) indep
      if r.1 then chooseLoop copy choice k r.2 else (false, r.2.term)

/-- Which atoms of an implication get a variable. -/
def implChoice (self : Atom) (left right opseq : Nat → Nat) (opSeqNonempty : Bool) (atom : Atom) : Option Bool :=
  if left atom.toNat ≥ 2 ∨ right atom.toNat ≥ 2 ∨ (left atom.toNat ≠ 0 ∧ right atom.toNat ≠ 0) then
    if left atom.toNat ≠ 0 ∧ right atom.toNat ≠ 0 then some true
    else if atom = self ∧ opSeqNonempty ∧ opseq atom.toNat ≠ 0 ∧ left atom.toNat = opseq atom.toNat then none
    else some false
  else none

theorem introduceLoop_choose (copy : Term) (self : Atom) (left right opseq : Nat → Nat) (ne : Bool) : ∀ k s,
    introduceLoop copy self left right opseq ne k s = chooseLoop copy (implChoice self left right opseq ne) k s := by
  intro k
  induction k with
  | zero => intro s; rfl
  | succ k ih =>
    intro s
    rw [introduceLoop, chooseLoop]
    unfold implChoice
    simp only [ih]
    split
    · split
      · rfl
      · split <;> rfl
    · rfl

theorem introduceConjLoop_choose (copy : Term) (left : Nat → Nat) : ∀ k s,
    introduceConjLoop copy left k s = chooseLoop copy (fun a => if left a.toNat ≥ 2 then some false else none) k s := by
  intro k
  induction k with
  | zero => intro s; rfl
  | succ k ih =>
    intro s
    rw [introduceConjLoop, chooseLoop]
    simp only [ih]
    split
    · rfl
    · rfl

/-- The variable for a number. -/
def introVar (indep : Bool) (id : Nat) : Atom := nameAtom (varName (if indep then '$' else '#') id)

/-- What an atom is replaced by. -/
def introRep (choice : Atom → Option Bool) (vid : Nat → Nat) (a : Atom) : Option Atom :=
  match choice a with
  | none => none
  | some indep => if vid a.toNat ≠ 0 ∧ vid a.toNat ≤ 9 then some (introVar indep (vid a.toNat)) else none

structure IntroInv (copy : Term) (choice : Atom → Option Bool) (start : Bool → Nat) (j : Nat) (s : IntroState) : Prop where
  term : ∀ i, s.term.get i = if i < j then (introRep choice s.variable_id (copy.get i)).getD (copy.get i) else copy.get i
  dom : ∀ a : Atom, s.variable_id a.toNat ≠ 0 ↔ choice a ≠ none ∧ ∃ i, i < j ∧ copy.get i = a
  range : ∀ (a : Atom) ind, choice a = some ind → s.variable_id a.toNat ≠ 0 →
    start ind ≤ s.variable_id a.toNat ∧ s.variable_id a.toNat < (if ind then s.indepvar_i else s.depvar_i)
  inj : ∀ (a b : Atom) ind, choice a = some ind → choice b = some ind → s.variable_id a.toNat ≠ 0 →
    s.variable_id a.toNat = s.variable_id b.toNat → a = b
  counter : ∀ ind, 1 ≤ start ind ∧ start ind ≤ (if ind then s.indepvar_i else s.depvar_i)
  surj : ∀ ind l, start ind ≤ l → l < (if ind then s.indepvar_i else s.depvar_i) →
    ∃ a : Atom, choice a = some ind ∧ s.variable_id a.toNat = l

theorem override_atom (t : Term) {i : Nat} (hi : i < COMPOUND_TERM_SIZE_MAX) {a : Atom} (ha : a ≠ 0) :
    (Term_OverrideSubterm t i (Term.zero.put 0 a)).1 = true ∧
    ∀ m, (Term_OverrideSubterm t i (Term.zero.put 0 a)).2.get m = if m = i then a else t.get m := by
  have hg : ∀ m, (Term.zero.put 0 a).get m = if m = 0 then a else 0 := by
    intro m
    by_cases hm : m = 0
    · subst hm; rw [Term.get_put_same _ _ (by decide), if_pos rfl]
    · rw [Term.get_put_ne _ _ hm, Term.get_zero, if_neg hm]
  have hpres : ∀ p, Present (Term.zero.put 0 a) 0 p ↔ p = [] := by
    intro p
    constructor
    · intro h
      cases p with
      | nil => rfl
      | cons b p =>
        exfalso
        have h2 := h.1
        rw [hg, if_neg] at h2
        · exact h2 rfl
        · have := lt_childPos 0 b; omega
    · rintro rfl
      show 0 < COMPOUND_TERM_SIZE_MAX
      decide
  obtain ⟨h1, h2, h3⟩ := C28_override t i (Term.zero.put 0 a)
  have hok : (Term_OverrideSubterm t i (Term.zero.put 0 a)).1 = true := by
    rw [h1]; intro p hp; rw [(hpres p).1 hp]; exact hi
  refine ⟨hok, fun m => ?_⟩
  by_cases hm : m = i
  · subst hm
    have := h2 hok [] ((hpres []).2 rfl)
    rw [if_pos rfl]
    have e : (Term.zero.put 0 a).get (pathPos 0 []) = a := by
      show (Term.zero.put 0 a).get 0 = a
      rw [hg, if_pos rfl]
    rw [e] at this
    exact this
  · rw [if_neg hm]
    apply h3
    intro p hp; rw [(hpres p).1 hp]; exact hm

theorem introVar_ne_zero {indep : Bool} {id : Nat} (h1 : 1 ≤ id) (h9 : id ≤ 9) : introVar indep id ≠ 0 := by
  have : ∀ b : Bool, ∀ l, l < 10 → 1 ≤ l → introVar b l ≠ 0 := by decide +kernel
  exact this indep id (by omega) h1

theorem chooseLoop_spec {copy : Term} {choice : Atom → Option Bool} {start : Bool → Nat}
    (hz : choice 0 = none) : ∀ (k : Nat) (s : IntroState),
    k ≤ COMPOUND_TERM_SIZE_MAX → IntroInv copy choice start (COMPOUND_TERM_SIZE_MAX - k) s →
    ∃ s', chooseLoop copy choice k s = (true, s'.term) ∧ IntroInv copy choice start COMPOUND_TERM_SIZE_MAX s' := by
  intro k
  induction k with
  | zero => intro s _ h; exact ⟨s, rfl, h⟩
  | succ k ih =>
    intro s hk h
    rw [chooseLoop]
    set j := COMPOUND_TERM_SIZE_MAX - (k + 1) with hj
    have hjlt : j < COMPOUND_TERM_SIZE_MAX := by omega
    have hnext : COMPOUND_TERM_SIZE_MAX - k = j + 1 := by omega
    rw [hnext] at ih
    set a := copy.get j with ha
    show ∃ s', (match choice a with
      | none => chooseLoop copy choice k s
      | some indep =>
        let r := introduceAt s j a indep
        if r.1 then chooseLoop copy choice k r.2 else (false, r.2.term)) = _ ∧ _
    cases hc : choice a with
    | none =>
      apply ih s (by omega)
      refine ⟨fun i => ?_, fun b => ?_, h.range, h.inj, h.counter, h.surj⟩
      · rw [h.term i]
        by_cases hij : i = j
        · rw [hij, if_neg (by omega), if_pos (by omega), ← ha]
          unfold introRep; rw [hc]; rfl
        · by_cases hlt : i < j
          · rw [if_pos hlt, if_pos (by omega)]
          · rw [if_neg hlt, if_neg (by omega)]
      · rw [h.dom b]
        constructor
        · rintro ⟨h1, i, hi, h2⟩; exact ⟨h1, i, by omega, h2⟩
        · rintro ⟨h1, i, hi, h2⟩
          refine ⟨h1, i, ?_, h2⟩
          by_contra hlt
          have : i = j := by omega
          rw [this, ← ha] at h2
          rw [← h2] at h1; exact h1 hc
    | some indep =>
      -- the state after taking the number
      have key : ∃ id s1, takeVarID s a indep = (id, s1) ∧ s1.term = s.term ∧ 1 ≤ id ∧ id = s1.variable_id a.toNat ∧
          (∀ b : Atom, b ≠ a → s1.variable_id b.toNat = s.variable_id b.toNat) ∧
          (∀ b : Atom, s1.variable_id b.toNat ≠ 0 ↔ choice b ≠ none ∧ ∃ i, i < j + 1 ∧ copy.get i = b) ∧
          (∀ (b : Atom) ind, choice b = some ind → s1.variable_id b.toNat ≠ 0 →
            start ind ≤ s1.variable_id b.toNat ∧ s1.variable_id b.toNat < (if ind then s1.indepvar_i else s1.depvar_i)) ∧
          (∀ (b c : Atom) ind, choice b = some ind → choice c = some ind → s1.variable_id b.toNat ≠ 0 →
            s1.variable_id b.toNat = s1.variable_id c.toNat → b = c) ∧
          (∀ ind, 1 ≤ start ind ∧ start ind ≤ (if ind then s1.indepvar_i else s1.depvar_i)) ∧
          (∀ ind l, start ind ≤ l → l < (if ind then s1.indepvar_i else s1.depvar_i) →
            ∃ b : Atom, choice b = some ind ∧ s1.variable_id b.toNat = l) ∧
          (s.variable_id a.toNat ≠ 0 → s1 = s) := by
        unfold takeVarID
        by_cases h0 : s.variable_id a.toNat ≠ 0
        · rw [if_pos h0]
          refine ⟨_, _, rfl, rfl, Nat.one_le_iff_ne_zero.2 h0, rfl, fun _ _ => rfl, fun b => ?_, h.range, h.inj, h.counter,
            h.surj, fun _ => rfl⟩
          rw [h.dom b]
          constructor
          · rintro ⟨h1, i, hi, h2⟩; exact ⟨h1, i, by omega, h2⟩
          · rintro ⟨h1, i, hi, h2⟩
            by_cases hij : i = j
            · rw [hij, ← ha] at h2
              rw [← h2]; exact (h.dom a).1 h0
            · exact ⟨h1, i, by omega, h2⟩
        · rw [if_neg h0]
          set id := if indep then s.indepvar_i else s.depvar_i with hid
          have hid1 : 1 ≤ id := Nat.le_trans (h.counter indep).1 (h.counter indep).2
          have hne : ∀ b : Atom, b ≠ a → b.toNat ≠ a.toNat := fun b hb e => hb (BitVec.eq_of_toNat_eq e)
          have hother : ∀ b : Atom, b ≠ a → upd s.variable_id a.toNat id b.toNat = s.variable_id b.toNat :=
            fun b hb => upd_other _ _ (hne b hb)
          have hcnt : ∀ ind : Bool, (if ind then s.indepvar_i else s.depvar_i) ≤
              (if ind then (if indep then s.indepvar_i + 1 else s.indepvar_i)
                else (if indep then s.depvar_i else s.depvar_i + 1)) := by
            intro ind; cases ind <;> cases indep <;> simp
          refine ⟨_, _, rfl, rfl, hid1, (upd_same _ _ _).symm, hother, fun b => ?_, fun b ind hb h1 => ?_,
            fun b c ind hb hcc h1 h2 => ?_, fun ind => ⟨(h.counter ind).1, Nat.le_trans (h.counter ind).2 (hcnt ind)⟩,
            fun ind l hl1 hl2 => ?_, fun h' => absurd h' h0⟩
          · by_cases hba : b = a
            · rw [hba]
              refine ⟨fun _ => ⟨by rw [hc]; exact Option.some_ne_none _, j, by omega, rfl⟩, fun _ => ?_⟩
              show upd s.variable_id a.toNat id a.toNat ≠ 0
              rw [upd_same]; omega
            · show upd s.variable_id a.toNat id b.toNat ≠ 0 ↔ _
              rw [hother b hba, h.dom b]
              constructor
              · rintro ⟨h1, i, hi, h2⟩; exact ⟨h1, i, by omega, h2⟩
              · rintro ⟨h1, i, hi, h2⟩
                refine ⟨h1, i, ?_, h2⟩
                by_contra hlt
                have : i = j := by omega
                rw [this, ← ha] at h2
                exact hba h2.symm
          · show start ind ≤ upd s.variable_id a.toNat id b.toNat ∧ upd s.variable_id a.toNat id b.toNat < _
            by_cases hba : b = a
            · rw [hba, hc] at hb
              obtain rfl := Option.some.inj hb
              rw [hba, upd_same]
              refine ⟨(h.counter _).2, ?_⟩
              show id < _
              rw [hid]; cases indep <;> simp
            · have h1' : s.variable_id b.toNat ≠ 0 := by rw [← hother b hba]; exact h1
              rw [hother b hba]
              obtain ⟨r1, r2⟩ := h.range b ind hb h1'
              exact ⟨r1, Nat.lt_of_lt_of_le r2 (hcnt ind)⟩
          · have h1' : upd s.variable_id a.toNat id b.toNat ≠ 0 := h1
            have h2' : upd s.variable_id a.toNat id b.toNat = upd s.variable_id a.toNat id c.toNat := h2
            by_cases hba : b = a
            · by_cases hca : c = a
              · rw [hba, hca]
              · exfalso
                rw [hba, upd_same, hother c hca] at h2'
                rw [hba, hc] at hb
                obtain rfl := Option.some.inj hb
                have := (h.range c _ hcc (by omega)).2
                omega
            · by_cases hca : c = a
              · exfalso
                rw [hca, upd_same, hother b hba] at h2'
                rw [hca, hc] at hcc
                obtain rfl := Option.some.inj hcc
                have := (h.range b _ hb (by omega)).2
                omega
              · rw [hother b hba, hother c hca] at h2'
                rw [hother b hba] at h1'
                exact h.inj b c ind hb hcc h1' h2'
          · by_cases hlt : l < (if ind then s.indepvar_i else s.depvar_i)
            · obtain ⟨b, hb, e⟩ := h.surj ind l hl1 hlt
              refine ⟨b, hb, ?_⟩
              have : b ≠ a := by
                rintro rfl
                have := (h.counter ind).1
                omega
              exact (hother b this).trans e
            · have hl2' : l < (if ind then (if indep then s.indepvar_i + 1 else s.indepvar_i)
                else (if indep then s.depvar_i else s.depvar_i + 1)) := hl2
              have : ind = indep ∧ l = id := by
                rw [hid]
                cases ind <;> cases indep <;> simp at hlt hl2' ⊢ <;> omega
              rw [this.1, this.2]
              exact ⟨a, hc, upd_same _ _ _⟩
      obtain ⟨id, s1, e1, et, hid1, hidv, hoth, hdom, hrange, hinj, hcnt, hsurj, hsame⟩ := key
      have hrep : ∀ i, i ≠ j → s.term.get i =
          if i < j + 1 then (introRep choice s1.variable_id (copy.get i)).getD (copy.get i) else copy.get i := by
        intro i hij
        rw [h.term i]
        by_cases hlt : i < j
        · rw [if_pos hlt, if_pos (by omega)]
          by_cases hia : copy.get i = a
          · have : s1 = s := hsame ((h.dom a).2 ⟨by rw [hc]; exact Option.some_ne_none _, i, hlt, hia⟩)
            rw [this]
          · unfold introRep; rw [hoth _ hia]
        · rw [if_neg hlt, if_neg (by omega)]
      simp only [introduceAt, e1]
      by_cases h9 : id ≤ 9
      · rw [if_pos h9]
        obtain ⟨o1, o2⟩ := override_atom s1.term hjlt (introVar_ne_zero (indep := indep) hid1 h9)
        have o1' : (Term_OverrideSubterm s1.term j
          (Term.zero.put 0 (nameAtom (varName (if indep = true then '$' else '#') id)))).1 = true := o1
        simp only [o1', if_true]
        refine ih ⟨_, s1.variable_id, s1.depvar_i, s1.indepvar_i⟩ (by omega) ⟨fun i => ?_, hdom, hrange, hinj, hcnt, hsurj⟩
        show (Term_OverrideSubterm s1.term j (Term.zero.put 0 (introVar indep id))).2.get i = _
        rw [o2 i]
        by_cases hij : i = j
        · rw [if_pos hij, if_pos (by omega), hij, ← ha]
          unfold introRep
          rw [hc]
          show _ = (if _ then _ else _ : Option Atom).getD _
          rw [← hidv, if_pos ⟨by omega, h9⟩]; rfl
        · rw [if_neg hij, et]; exact hrep i hij
      · rw [if_neg h9]
        simp only [if_true]
        refine ih s1 (by omega) ⟨fun i => ?_, hdom, hrange, hinj, hcnt, hsurj⟩
        rw [et]
        by_cases hij : i = j
        · rw [if_pos (by omega), hij, h.term j, if_neg (by omega), ← ha]
          unfold introRep
          rw [hc]
          show _ = (if _ then _ else _ : Option Atom).getD _
          rw [← hidv, if_neg (by omega)]; rfl
        · exact hrep i hij

theorem newVarIDLoop_spec (t : Term) (kind : Char) : ∀ k, k ≤ 9 → newVarIDLoop t kind k ≠ 0 →
    10 - k ≤ newVarIDLoop t kind k ∧ newVarIDLoop t kind k ≤ 9 ∧
      Term_HasAtom t (nameAtom (varName kind (newVarIDLoop t kind k))) = false := by
  intro k
  induction k with
  | zero => intro _ h; exact absurd rfl h
  | succ k ih =>
    intro hk h
    rw [newVarIDLoop] at h ⊢
    by_cases hh : (!Term_HasAtom t (nameAtom (varName kind (10 - (k + 1))))) = true
    · rw [if_pos hh]
      exact ⟨Nat.le_refl _, by omega, by simpa using hh⟩
    · rw [if_neg hh] at h ⊢
      obtain ⟨a, b, c⟩ := ih (by omega) h
      exact ⟨by omega, b, c⟩

theorem hasAtom_iff {t : Term} {a : Atom} (h0 : a ≠ 0) : Term_HasAtom t a = true ↔ t.HasAt a := by
  unfold Term_HasAtom Term.HasAt
  rw [List.any_eq_true]
  constructor
  · rintro ⟨i, -, h⟩; exact ⟨i, by simpa using h⟩
  · rintro ⟨i, h⟩
    exact ⟨i, List.mem_range.2 (Term.lt_of_get_ne (by rw [h]; exact h0)), by simpa using h⟩

end ONA
